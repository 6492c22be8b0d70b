import Verif.Spec.Reading
import Verif.Proofs.MathML

/-! # Reading displayed formulas -/

namespace Oasis
namespace ML
variable {K : Type}

/-! ### At most one reading -/

theorem no_factor_d [Num K] {num : Str → Option K} {m : Reading K} {l rest : List Xml} {f : Expr K} (h : Reads num m l f rest) :
    (m = .whole ∨ m = .signed ∨ m = .term ∨ m = .factor) → ∀ l', l ≠ mo ['d'] :: l' := by
  induction h with
  | whole _ _ ih => exact fun _ l' h => ih (by simp) l' h
  | positive _ _ ih => exact fun _ l' h => ih (by simp) l' h
  | term _ _ ih => exact fun _ l' h => ih (by simp) l' h
  | negative _ _ => intro _ l' h; simp [mo] at h
  | plus | minus | done | cross | beside | last => intro h; simp at h
  | _ => intro _ l' h; simp [mo, mn, mi] at h

theorem table_unique [Num K] {num : Str → Option K} {kids : List Xml} {a b : List (List K)} (ha : TableReads num kids a)
    (hb : TableReads num kids b) : a = b := by
  unfold TableReads at ha hb
  induction ha generalizing b with
  | nil => cases hb; rfl
  | cons h _ ih =>
    cases hb with
    | cons h' hb =>
      rw [ih hb]
      obtain ⟨cells, rfl, h⟩ := h
      obtain ⟨cells', he, h'⟩ := h'
      cases he
      congr 1
      clear ih hb
      rename_i row _ _ _ row' _
      clear * - h h'
      induction h generalizing row' with
      | nil => cases h'; rfl
      | cons h _ ih =>
        cases h' with
        | cons h' hb =>
          rw [ih hb]
          obtain ⟨s, rfl, h⟩ := h
          obtain ⟨s', he, h'⟩ := h'
          cases he
          rw [h] at h'
          rw [Option.some.inj h']

theorem reads_unique [Num K] {num : Str → Option K} {m : Reading K} {l rest rest' : List Xml} {f g : Expr K} (h : Reads num m l f rest)
    (h' : Reads num m l g rest') : f = g ∧ rest = rest' := by
  induction h generalizing g rest' with
  | whole _ _ ih1 ih2 =>
    cases h' with
    | whole h1 h2 => obtain ⟨rfl, rfl⟩ := ih1 h1; exact ih2 h2
  | plus _ _ ih1 ih2 =>
    cases h' with
    | plus h1 h2 => obtain ⟨rfl, rfl⟩ := ih1 h1; exact ih2 h2
    | done h _ => exact absurd ⟨_, rfl⟩ h
  | minus _ _ ih1 ih2 =>
    cases h' with
    | minus h1 h2 => obtain ⟨rfl, rfl⟩ := ih1 h1; exact ih2 h2
    | done _ h => exact absurd ⟨_, rfl⟩ h
  | done h1 h2 =>
    cases h' with
    | plus => exact absurd ⟨_, rfl⟩ h1
    | minus => exact absurd ⟨_, rfl⟩ h2
    | done => exact ⟨rfl, rfl⟩
  | negative _ ih =>
    cases h' with
    | negative h => obtain ⟨rfl, rfl⟩ := ih h; exact ⟨rfl, rfl⟩
    | positive h _ => exact absurd ⟨_, rfl⟩ h
  | positive h _ ih =>
    cases h' with
    | negative => exact absurd ⟨_, rfl⟩ h
    | positive _ h => exact ih h
  | term _ _ ih1 ih2 =>
    cases h' with
    | term h1 h2 => obtain ⟨rfl, rfl⟩ := ih1 h1; exact ih2 h2
  | cross _ _ ih1 ih2 =>
    cases h' with
    | cross h1 h2 => obtain ⟨rfl, rfl⟩ := ih1 h1; exact ih2 h2
    | beside h => simp [StartsFactor, mo] at h
    | last _ h => exact absurd ⟨_, rfl⟩ h
  | beside h _ _ ih1 ih2 =>
    cases h' with
    | cross => simp [StartsFactor, mo] at h
    | beside _ h1 h2 => obtain ⟨rfl, rfl⟩ := ih1 h1; exact ih2 h2
    | last h' _ => exact absurd h h'
  | last h1 h2 =>
    cases h' with
    | cross => exact absurd ⟨_, rfl⟩ h2
    | beside h => exact absurd h h1
    | last => exact ⟨rfl, rfl⟩
  | number h _ =>
    cases h' with
    | number h' _ => rw [h] at h'; cases h'; exact ⟨rfl, rfl⟩
  | name => cases h'; exact ⟨rfl, rfl⟩
  | undefined => cases h'; exact ⟨rfl, rfl⟩
  | parens _ ih =>
    cases h' with
    | parens h => obtain ⟨rfl, h3⟩ := ih h; exact ⟨rfl, (List.cons.inj h3).2⟩
  | bars _ ih =>
    cases h' with
    | bars h => obtain ⟨rfl, h3⟩ := ih h; exact ⟨rfl, (List.cons.inj h3).2⟩
  | fraction hx _ ih1 ih2 =>
    cases h' with
    | fraction h1 h2 => obtain ⟨rfl, _⟩ := ih1 h1; obtain ⟨rfl, _⟩ := ih2 h2; exact ⟨rfl, rfl⟩
    | derivative => exact absurd (by simp [Xml.row, mo]) (no_factor_d hx (by simp) [])
  | power _ _ ih1 ih2 =>
    cases h' with
    | power h1 h2 => obtain ⟨rfl, _⟩ := ih1 h1; obtain ⟨rfl, _⟩ := ih2 h2; exact ⟨rfl, rfl⟩
  | log _ _ ih1 ih2 =>
    cases h' with
    | log h1 h2 => obtain ⟨rfl, _⟩ := ih1 h1; obtain ⟨rfl, h⟩ := ih2 h2; cases h; exact ⟨rfl, rfl⟩
  | derivative _ _ ih1 ih2 =>
    cases h' with
    | fraction h1 h2 => exact absurd (by simp [Xml.row, mo]) (no_factor_d h1 (by simp) [])
    | derivative h1 h2 => obtain ⟨rfl, _⟩ := ih1 h1; obtain ⟨rfl, h⟩ := ih2 h2; cases h; exact ⟨rfl, rfl⟩
  | integral _ _ ih1 ih2 =>
    cases h' with
    | integral h1 h2 => obtain ⟨rfl, h⟩ := ih1 h1; cases h; obtain ⟨rfl, rfl⟩ := ih2 h2; exact ⟨rfl, rfl⟩
  | @table kids rest rows c h hne hc =>
    cases h' with
    | @table _ _ rows' c' h' _ hc' =>
      cases table_unique h h'
      obtain ⟨row, hr⟩ := List.exists_mem_of_ne_nil _ hne
      cases (hc row hr).symm.trans (hc' row hr)
      exact ⟨rfl, rfl⟩

/-! ### Rows -/

theorem row_mrow (l : List Xml) : (mrow l).row = Xml.rowAll l := by simp [mrow, Xml.row]
theorem rowAll_cons (x : Xml) (l : List Xml) : Xml.rowAll (x :: l) = x.row ++ Xml.rowAll l := by rw [Xml.rowAll]
theorem rowAll_nil : Xml.rowAll [] = [] := by rw [Xml.rowAll]
theorem rowAll_append (l l' : List Xml) : Xml.rowAll (l ++ l') = Xml.rowAll l ++ Xml.rowAll l' := by
  induction l with
  | nil => simp [rowAll_nil]
  | cons x l ih => simp [rowAll_cons, ih]
theorem row_mo (s : Str) : (mo s).row = [mo s] := by simp [mo, Xml.row]
theorem row_mi (s : Str) : (mi s).row = [mi s] := by simp [mi, Xml.row]
theorem row_mn {s : Str} (h : s.head? ≠ some '-') : (mn s).row = [mn s] := by simp [mn, Xml.row, h]
theorem row_minus (t : Str) : (mn ('-' :: t)).row = [mo ['-'], mn t] := by simp [mn, Xml.row]
theorem row_frac (x y : Xml) : (Xml.node (chars! "mfrac") [x, y]).row = [.node (chars! "mfrac") [x, y]] := by
  cases x <;> simp [Xml.row]
theorem row_sub (x y : Xml) : (Xml.node (chars! "msub") [x, y]).row = [.node (chars! "msub") [x, y]] := by
  cases x <;> simp [Xml.row]
theorem row_sup {x : Xml} (h : ∀ s, x = mn s → s.head? ≠ some '-') (y : Xml) :
    (Xml.node (chars! "msup") [x, y]).row = [.node (chars! "msup") [x, y]] := by
  cases x with
  | node => simp [Xml.row]
  | text t s =>
    have : ¬ (t = chars! "mn" ∧ s.head? = some '-') := by
      rintro ⟨rfl, h'⟩
      exact h s rfl h'
    simp only [Xml.row]
    rw [if_neg (by decide), if_neg (fun h => this h.2)]
theorem row_parens (x : Xml) : Xml.rowAll (inParens x) = mo ['('] :: (x.row ++ [mo [')']]) := by
  simp [inParens, rowAll_cons, rowAll_nil, row_mo]

/-- the row does not go on with a factor -/
def Stop (l : List Xml) : Prop := ¬ StartsFactor l ∧ ¬ NextIs ['×'] l

theorem Stop.digits {l : List Xml} (h : Stop l) : ¬ StartsDigits l := by
  intro h'
  apply h.1
  match l with
  | [] => exact h'
  | .text tag s :: _ =>
    have : tag = chars! "mn" := h'
    subst this
    intro h; simp at h
  | .node _ _ :: _ => trivial

/-- the expression ends here -/
def Closes (l : List Xml) : Prop := Stop l ∧ ¬ NextIs ['+'] l ∧ ¬ NextIs ['-'] l

theorem closes_nil : Closes [] := by simp [Closes, Stop, StartsFactor, NextIs]
theorem closes_sign {s : Str} (h : s ∈ [[')'], ['|'], ['d']]) (l : List Xml) : Closes (mo s :: l) := by
  simp only [List.mem_cons, List.not_mem_nil, or_false] at h
  rcases h with rfl | rfl | rfl <;> simp [Closes, Stop, StartsFactor, NextIs, mo]
theorem stop_plus (l : List Xml) : Stop (mo ['+'] :: l) := by simp [Stop, StartsFactor, NextIs, mo]
theorem stop_minus (l : List Xml) : Stop (mo ['-'] :: l) := by simp [Stop, StartsFactor, NextIs, mo]

/-! ### Grouping -/

section
variable [NumText K] [Num K]

theorem fold_flat {op : BinOp} (h : op = .add ∨ op = .mul) {e : Expr K} (hc : e.Complete) (acc : Expr K) :
    SameReading ((flatOp op e).foldl (.bin op) acc) (.bin op acc e) := by
  induction e generalizing acc with
  | absent => exact absurd rfl hc
  | bin op' a b iha ihb =>
    rw [flatOp]
    split
    · rename_i h'
      subst h'
      rw [List.foldl_append]
      refine .trans (ihb hc.2.2 _) (.trans (.bin _ (iha hc.2.1 _) (.refl _)) ?_)
      rcases h with rfl | rfl
      · exact .sums _ _ _
      · exact .products _ _ _
    · exact .refl _
  | _ => simp only [flatOp, List.foldl_cons, List.foldl_nil]; exact .refl _

theorem fold_flatten {op : BinOp} (h : op = .add ∨ op = .mul) {a b x : Expr K} {l : List (Expr K)} (ha : a.Complete) (hb : b.Complete)
    (hl : flatten op a b = x :: l) : SameReading (l.foldl (.bin op) x) (.bin op a b) := by
  have key : ∀ {e : Expr K}, e.Complete → ∀ {x : Expr K} {l : List (Expr K)}, flatOp op e = x :: l → SameReading (l.foldl (.bin op) x) e := by
    intro e hc
    induction e with
    | absent => exact absurd rfl hc
    | bin op' p q ihp ihq =>
      intro x l hl
      rw [flatOp] at hl
      split at hl
      · rename_i h'
        subst h'
        cases hp : flatOp op' p with
        | nil => exact absurd hp (flatOp_cons_ne hc.2.1)
        | cons y m =>
          rw [hp] at hl
          cases hl
          show SameReading (List.foldl _ _ (_ ++ _)) _
          rw [List.foldl_append]
          exact .trans (fold_flat h hc.2.2 _) (.bin _ (ihp hc.2.1 hp) (.refl _))
      · cases hl; exact .refl _
    | _ => intro x l hl; simp only [flatOp] at hl; cases hl; exact .refl _
  unfold flatten at hl
  cases hp : flatOp op a with
  | nil => exact absurd hp (flatOp_cons_ne ha)
  | cons y m =>
    rw [hp] at hl
    cases hl
    show SameReading (List.foldl _ _ (_ ++ _)) _
    rw [List.foldl_append]
    exact .trans (fold_flat h hb _) (.bin _ (key ha hp) (.refl _))

theorem fold_congr {op : BinOp} {a b : Expr K} (h : SameReading a b) (l : List (Expr K)) :
    SameReading (l.foldl (.bin op) a) (l.foldl (.bin op) b) := by
  induction l generalizing a b with
  | nil => exact h
  | cons x l ih => exact ih (.bin _ h (.refl _))

theorem fold_minus (a : Expr K) (l : List (Expr K)) :
    SameReading (.neg (l.foldl (.bin .mul) a)) (l.foldl (.bin .mul) (.neg a)) := by
  induction l generalizing a with
  | nil => exact .refl _
  | cons x l ih => exact .trans (ih _) (fold_congr (.minusTimes _ _) l)

end

/-! ### Reading what is displayed -/

section
variable [NumText K] [Num K] {num : Str → Option K}

theorem _root_.Oasis.Clear.good {e : Expr K} (h : Clear num e) : Good e := by
  have key : ∀ {op : BinOp} {a b : Expr K}, Clear num (.bin op a b) → Clear num a ∧ Clear num b := by
    intro op a b h
    cases op <;> exact ⟨h.1, by first | exact h.2 | exact h.2.1⟩
  induction e with
  | un op a ih =>
    cases op with
    | sine => exact h.elim
    | neg => exact ⟨⟨by simp, (ih h).1⟩, ⟨by simp, (ih h).2⟩⟩
    | mag => exact ⟨⟨by simp, (ih h).1⟩, ⟨by simp, (ih h).2⟩⟩
  | bin op a b iha ihb =>
    exact ⟨⟨by simp, (iha (key h).1).1, (ihb (key h).2).1⟩, ⟨by simp, (iha (key h).1).2, (ihb (key h).2).2⟩⟩
  | mat m => exact ⟨by simp [Expr.Complete, Expr.Everywhere], fun _ hm => by cases hm; exact ⟨h.1, h.2.1, fun _ _ => trivial⟩⟩
  | absent => exact h.elim
  | _ => exact ⟨by simp [Expr.Complete, Expr.Everywhere], by simp [FullMats, Expr.Everywhere]⟩

theorem _root_.Oasis.Clear.both {op : BinOp} {a b : Expr K} (h : Clear num (.bin op a b)) : Clear num a ∧ Clear num b := by
  cases op <;> exact ⟨h.1, by first | exact h.2 | exact h.2.1⟩

theorem _root_.Oasis.Clear.flat {op : BinOp} {e : Expr K} (h : Clear num e) : ∀ x ∈ flatOp op e, Clear num x := by
  induction e with
  | absent => exact h.elim
  | bin op' a b iha ihb =>
    rw [flatOp]
    split
    · intro x hx
      rcases List.mem_append.1 hx with hx | hx
      · exact iha h.both.1 x hx
      · exact ihb h.both.2 x hx
    · simpa using h
  | _ => simp only [flatOp]; simpa using h

/-- read as one signed term -/
def AsSigned (num : Str → Option K) (e : Expr K) : Prop :=
  ∃ f, SameReading e f ∧ ∀ rest, Stop rest → Reads num .signed ((xml e).row ++ rest) f rest
/-- read as the beginning of a sum -/
def AsSum (num : Str → Option K) (e : Expr K) : Prop :=
  ∃ f, SameReading e f ∧ ∀ rest h r, Stop rest → Reads num (.more f) rest h r → Reads num .whole ((xml e).row ++ rest) h r
/-- read as a summand -/
def AsSummand (num : Str → Option K) (e : Expr K) : Prop :=
  ∀ acc, ∃ f, SameReading (.add acc e) f ∧ ∀ rest h r, Stop rest → Reads num (.more f) rest h r →
    Reads num (.more acc) (mo ['+'] :: ((xml e).row ++ rest)) h r
/-- read as a whole -/
def AsWhole (num : Str → Option K) (e : Expr K) : Prop :=
  ∃ f, SameReading e f ∧ ∀ rest, Closes rest → Reads num .whole ((xml e).row ++ rest) f rest
/-- read as a factor -/
def AsFactor (num : Str → Option K) (e : Expr K) : Prop :=
  ∃ f, SameReading e f ∧ ∀ rest, (IsNum e → ¬ StartsDigits rest) → Reads num .factor (Xml.rowAll (xmlFactor (e, xml e)) ++ rest) f rest

/-- read together, without parentheses around it -/
def AsSingle (num : Str → Option K) (e : Expr K) : Prop :=
  ∃ f, SameReading e f ∧ ∀ rest, Stop rest → Reads num .factor ((xml e).row ++ rest) f rest

theorem AsSigned.sum {e : Expr K} (h : AsSigned num e) : AsSum num e := by
  obtain ⟨f, h1, h2⟩ := h
  exact ⟨f, h1, fun rest h r hs hm => .whole (h2 rest hs) hm⟩

theorem AsSigned.summand {e : Expr K} (h : AsSigned num e) : AsSummand num e := by
  obtain ⟨f, h1, h2⟩ := h
  exact fun acc => ⟨.add acc f, .bin _ (.refl _) h1, fun rest h r hs hm => .plus (h2 rest hs) hm⟩

theorem AsSum.whole {e : Expr K} (h : AsSum num e) : AsWhole num e := by
  obtain ⟨f, h1, h2⟩ := h
  exact ⟨f, h1, fun rest hc => h2 rest f rest hc.1 (.done hc.2.1 hc.2.2)⟩

theorem reads_term {l rest : List Xml} {f : Expr K} (h : Reads num .factor l f rest) (hs : Stop rest) (hm : ¬ NextIs ['-'] l) :
    Reads num .signed l f rest := .positive hm (.term h (.last hs.1 hs.2))

theorem xml_real (v : K) : xml (.real v) = mn (NumText.fmt 5 v) := xml_eq (by rw [mathML])
theorem xml_var (n : Str) : xml (.var n : Expr K) = mi n := xml_eq (by rw [mathML])
theorem xml_imag : xml (.imag : Expr K) = mi ['i'] := xml_eq (by rw [mathML])
theorem xml_euler : xml (.euler : Expr K) = mi ['e'] := xml_eq (by rw [mathML])
theorem xml_pi : xml (.pi : Expr K) = mi (chars! "&pi;") := xml_eq (by rw [mathML])
theorem xml_undef : xml (.undef : Expr K) = .text (chars! "mtext") (chars! "Undefined") := xml_eq (by rw [mathML])

theorem nameOf_var {n : Str} (h : n ∉ [['i'], ['e'], chars! "&pi;"]) : (nameOf n : Expr K) = .var n := by
  simp only [List.mem_cons, List.not_mem_nil, or_false, not_or] at h
  simp only [nameOf, h.1, h.2.1, h.2.2, if_false]

theorem AsWhole.parens {e : Expr K} (h : AsWhole num e) :
    ∃ f, SameReading e f ∧ ∀ rest, Reads num .factor (mo ['('] :: ((xml e).row ++ mo [')'] :: rest)) f rest := by
  obtain ⟨f, h1, h2⟩ := h
  exact ⟨f, h1, fun rest => .parens (h2 _ (closes_sign (by simp) rest))⟩

theorem base_read {a : Expr K} (h : AsWhole num a) (hc : Clear num a) (hp : ∀ v, a = .real v → PlainNum num v) :
    ∃ f, SameReading a f ∧ Reads num .factor (xmlBase a (xml a)).row f [] ∧ ∀ s, xmlBase a (xml a) = mn s → s.head? ≠ some '-' := by
  rcases base_cases a (xml a) with ⟨h1, h2⟩ | ⟨h1, h2⟩
  · rw [h1]
    cases a with
    | real v =>
      have := hp v rfl
      rw [xml_real]
      refine ⟨_, .refl _, ?_, fun s hs => ?_⟩
      · rw [row_mn this.1]
        exact .number this.2 (by simp [StartsDigits])
      · simp only [mn, Xml.text.injEq, true_and] at hs
        exact hs ▸ this.1
    | var n =>
      rw [xml_var, row_mi]
      refine ⟨_, .refl _, ?_, fun s hs => by simp [mi, mn] at hs⟩
      have := Reads.name (num := num) [] n
      rwa [nameOf_var hc] at this
    | _ => simp [isReal, isVar] at h2
  · obtain ⟨f, h3, h4⟩ := h.parens
    refine ⟨f, h3, ?_, fun s hs => ?_⟩
    · rw [h1, row_mrow, row_parens]
      exact h4 []
    · rw [h1] at hs; simp [mrow, mn] at hs

theorem AsWhole.nil {e : Expr K} (h : AsWhole num e) : ∃ f, SameReading e f ∧ Reads num .whole (xml e).row f [] := by
  obtain ⟨f, h1, h2⟩ := h
  exact ⟨f, h1, by simpa using h2 [] closes_nil⟩

/-- powers -/
theorem pow_read {a b : Expr K} (h : Clear num (.bin .pow a b)) (ha : AsWhole num a) (hb : AsWhole num b) :
    ∃ f, SameReading (.bin .pow a b) f ∧ ∀ rest, Reads num .factor ((xml (.bin .pow a b)).row ++ rest) f rest := by
  obtain ⟨f, h1, h2, h3⟩ := base_read ha h.1 h.2.2
  obtain ⟨g, h4, h5⟩ := hb.nil
  refine ⟨.pow f g, .bin _ h1 h4, fun rest => ?_⟩
  rw [xml_bin (by decide) (by decide) h.good]
  simp only [xmlBin]
  rw [row_sup h3]
  exact .power h2 h5

/-- logarithms -/
theorem log_read {a b : Expr K} (h : Clear num (.bin .log a b)) (ha : AsWhole num a) (hb : AsWhole num b) :
    ∃ f, SameReading (.bin .log a b) f ∧ ∀ rest, Reads num .factor ((xml (.bin .log a b)).row ++ rest) f rest := by
  obtain ⟨f, h1, h2⟩ := ha.nil
  obtain ⟨g, h3, h4⟩ := hb
  refine ⟨.log f g, .bin _ h1 h3, fun rest => ?_⟩
  rw [xml_bin (by decide) (by decide) h.good]
  simp only [xmlBin]
  rw [row_mrow, rowAll_append, row_parens, rowAll_cons, rowAll_nil, row_sub]
  simp only [List.append_nil, List.cons_append, List.nil_append, List.append_assoc]
  exact .log h2 (h4 _ (closes_sign (by simp) rest))

theorem bare_cases {e : Expr K} (h : bareFactor e = true) : (∃ v, e = .real v) ∨ (∃ n, e = .var n) ∨
    (∃ a b, e = .bin .pow a b) ∨ ∃ a b, e = .bin .log a b := by
  unfold bareFactor at h
  split at h <;> simp_all

theorem factor_read {e : Expr K} (h : Clear num e) (hp : ∀ v, e = .real v → PlainNum num v) (hw : AsWhole num e)
    (hs : ∀ op a b, e = .bin op a b → AsWhole num a ∧ AsWhole num b) : AsFactor num e := by
  cases hb : bareFactor e with
  | false =>
    obtain ⟨f, h1, h2⟩ := hw.parens
    refine ⟨f, h1, fun rest _ => ?_⟩
    simp only [xmlFactor, hb]
    rw [if_neg (by decide), row_parens]
    simpa using h2 rest
  | true =>
    unfold AsFactor
    simp only [xmlFactor, hb, if_true, rowAll_cons, rowAll_nil, List.append_nil]
    rcases bare_cases hb with ⟨v, rfl⟩ | ⟨n, rfl⟩ | ⟨a, b, rfl⟩ | ⟨a, b, rfl⟩
    · refine ⟨_, .refl _, fun rest hr => ?_⟩
      rw [xml_real, row_mn (hp v rfl).1]
      exact .number (hp v rfl).2 (hr trivial)
    · refine ⟨_, .refl _, fun rest _ => ?_⟩
      rw [xml_var, row_mi]
      have := Reads.name (num := num) rest n
      rwa [nameOf_var h] at this
    · obtain ⟨f, h1, h2⟩ := pow_read h (hs _ _ _ rfl).1 (hs _ _ _ rfl).2
      exact ⟨f, h1, fun rest _ => h2 rest⟩
    · obtain ⟨f, h1, h2⟩ := log_read h (hs _ _ _ rfl).1 (hs _ _ _ rfl).2
      exact ⟨f, h1, fun rest _ => h2 rest⟩

theorem pow_row {a b : Expr K} (h : Clear num (.bin .pow a b)) :
    (xml (.bin .pow a b)).row = [.node (chars! "msup") [xmlBase a (xml a), xml b]] := by
  rw [xml_bin (by decide) (by decide) h.good]
  simp only [xmlBin]
  refine row_sup (fun s hs => ?_) _
  rcases base_cases a (xml a) with ⟨h1, h2⟩ | ⟨h1, h2⟩
  · rw [h1] at hs
    cases a with
    | real v =>
      rw [xml_real] at hs
      simp only [mn, Xml.text.injEq, true_and] at hs
      exact hs ▸ (h.2.2 v rfl).1
    | var n => rw [xml_var] at hs; simp [mi, mn] at hs
    | _ => simp [isReal, isVar] at h2
  · rw [h1] at hs; simp [mrow, mn] at hs

theorem log_row {a b : Expr K} (h : Clear num (.bin .log a b)) : ∃ l,
    (xml (.bin .log a b)).row = .node (chars! "msub") [mi (chars! "log"), xml a] :: l := by
  rw [xml_bin (by decide) (by decide) h.good]
  simp only [xmlBin]
  rw [row_mrow, rowAll_append, rowAll_cons, rowAll_nil, row_sub]
  exact ⟨_, rfl⟩

theorem factor_start {e : Expr K} (h : Clear num e) (hp : ∀ v, e = .real v → PlainNum num v) (rest : List Xml) :
    StartsFactor (Xml.rowAll (xmlFactor (e, xml e)) ++ rest) ∧ ¬ NextIs ['-'] (Xml.rowAll (xmlFactor (e, xml e)) ++ rest) ∧
    (StartsDigits (Xml.rowAll (xmlFactor (e, xml e)) ++ rest) → IsNum e ∨ NumPower e) := by
  cases hb : bareFactor e with
  | false =>
    simp only [xmlFactor, hb]
    rw [if_neg (by decide), row_parens]
    simp [StartsFactor, NextIs, StartsDigits, mo]
  | true =>
    simp only [xmlFactor, hb, if_true, rowAll_cons, rowAll_nil, List.append_nil]
    rcases bare_cases hb with ⟨v, rfl⟩ | ⟨n, rfl⟩ | ⟨a, b, rfl⟩ | ⟨a, b, rfl⟩
    · rw [xml_real, row_mn (hp v rfl).1]
      simp [StartsFactor, NextIs, StartsDigits, mo, mn, IsNum]
    · rw [xml_var, row_mi]
      simp [StartsFactor, NextIs, StartsDigits, mo, mi]
    · rw [pow_row h]
      refine ⟨trivial, by simp [NextIs, mo], fun hd => .inr ?_⟩
      rcases base_cases a (xml a) with ⟨h1, h2⟩ | ⟨h1, h2⟩
      · cases a with
        | real v => trivial
        | var n => rw [h1, xml_var] at hd; simp [StartsDigits, mi] at hd
        | _ => simp [isReal, isVar] at h2
      · rw [h1] at hd; simp [StartsDigits, mrow] at hd
    · obtain ⟨l, hl⟩ := log_row h
      rw [hl]
      simp [StartsFactor, NextIs, StartsDigits, mo, mi]

theorem isReal_iff (e : Expr K) : isReal e = true ↔ IsNum e := by cases e <;> simp [isReal, IsNum]

theorem times_read {x : Expr K} {l : List (Expr K)} (hl : ∀ y ∈ l, Clear num y ∧ AsFactor num y)
    (hp : ∀ v, .real v ∈ l → PlainNum num v) (hc : (x :: l).IsChain fun x y => ¬ (IsNum x ∧ NumPower y)) (acc : Expr K) :
    (∃ f, SameReading (l.foldl (.bin .mul) acc) f ∧ ∀ rest, Stop rest →
      Reads num (.times acc) (Xml.rowAll (xmlFactors x (l.map fun y => (y, xml y))) ++ rest) f rest) ∧
    ∀ rest, Stop rest → IsNum x → ¬ StartsDigits (Xml.rowAll (xmlFactors x (l.map fun y => (y, xml y))) ++ rest) := by
  induction l generalizing x acc with
  | nil => exact ⟨⟨_, .refl _, fun rest hs => by simpa [xmlFactors, rowAll_nil] using Reads.last hs.1 hs.2⟩,
      fun rest hs _ => by simpa [xmlFactors, rowAll_nil] using hs.digits⟩
  | cons y l ih =>
    obtain ⟨hy, g, hg, hr⟩ := hl y (by simp)
    have hpy : ∀ v, y = .real v → PlainNum num v := fun v h => hp v (by simp [h])
    rw [List.isChain_cons_cons] at hc
    obtain ⟨⟨f, h1, h2⟩, h3⟩ := ih (x := y) (fun z hz => hl z (by simp [hz])) (fun v hv => hp v (by simp [hv])) hc.2 (.mul acc g)
    simp only [List.map_cons, xmlFactors, rowAll_append]
    constructor
    · refine ⟨f, .trans (fold_congr (.bin _ (.refl _) hg) l) h1, fun rest hs => ?_⟩
      have hr := hr _ (fun h => h3 rest hs h)
      have h2 := h2 rest hs
      split
      · rw [rowAll_cons, rowAll_nil, row_mo]
        simpa using Reads.cross hr h2
      · rw [rowAll_nil]
        simpa using Reads.beside (factor_start hy hpy _).1 hr h2
    · intro rest hs hx
      split
      · rw [rowAll_cons, rowAll_nil, row_mo]
        simp [StartsDigits, mo]
      · rename_i hn
        rw [rowAll_nil, List.nil_append, List.append_assoc]
        intro hd
        rcases (factor_start hy hpy _).2.2 hd with h | h
        · exact hn (by simp [(isReal_iff x).2 hx, (isReal_iff y).2 h])
        · exact hc.1 ⟨hx, h⟩

theorem flat_no {op : BinOp} (e : Expr K) : ∀ x ∈ flatOp op e, ∀ a b, x ≠ .bin op a b := by
  induction e with
  | absent => simp [flatOp]
  | bin op' a b iha ihb =>
    rw [flatOp]
    split
    · intro x hx
      rcases List.mem_append.1 hx with hx | hx
      · exact iha x hx
      · exact ihb x hx
    · rename_i h
      intro x hx a b hab
      simp only [List.mem_singleton] at hx
      subst hx
      cases hab
      exact h rfl
  | _ => simp [flatOp]

theorem product_read {a b : Expr K} (h : Clear num (.bin .mul a b))
    (ih : ∀ e : Expr K, e.size < (Expr.bin .mul a b).size → Clear num e → AsWhole num e) : AsSigned num (.bin .mul a b) := by
  obtain ⟨x, y, l, hl⟩ := flat_cons h.good
  have hcl : ∀ z ∈ flatten .mul a b, Clear num z := fun z hz => by
    rcases List.mem_append.1 hz with hz | hz
    · exact h.1.flat z hz
    · exact h.2.1.flat z hz
  have hsz : ∀ z ∈ flatten .mul a b, z.size < (Expr.bin .mul a b).size := fun z hz => flatten_size .mul a b z hz
  have hfac : ∀ z ∈ flatten .mul a b, (∀ v, z = .real v → PlainNum num v) → AsFactor num z := fun z hz hp =>
    factor_read (hcl z hz) hp (ih z (hsz z hz) (hcl z hz)) fun op p q hpq => by
      subst hpq
      have h1 := hsz _ hz
      have h2 := (hcl _ hz).both
      simp only [Expr.size] at h1
      exact ⟨ih p (by simp only [Expr.size]; omega) h2.1, ih q (by simp only [Expr.size]; omega) h2.2⟩
  obtain ⟨hplain, hchain⟩ := h.2.2
  rw [hl] at hplain hchain hcl hfac
  have hsame := fold_flatten (.inr rfl) h.good.left.1 h.good.right.1 hl
  have hp' : ∀ v, .real v ∈ y :: l → PlainNum num v := hplain
  have hfs : ∀ z ∈ y :: l, Clear num z ∧ AsFactor num z := fun z hz => ⟨hcl z (List.mem_cons_of_mem _ hz),
    hfac z (List.mem_cons_of_mem _ hz) fun v hv => hp' v (hv ▸ hz)⟩
  unfold AsSigned
  rw [xml_mul h.good hl, row_mrow, rowAll_append]
  by_cases hm : ∃ v, x = .real v ∧ MinusNum num v
  · obtain ⟨v, rfl, t, w, ht, hw, rfl⟩ := hm
    obtain ⟨⟨f, h1, h2⟩, h3⟩ := times_read (num := num) hfs hp' hchain (.real w)
    refine ⟨.neg f, ?_, fun rest hs => ?_⟩
    · refine .trans (.symm hsame) (.trans (fold_congr (.symm (.minus w)) _) (.trans (.symm (fold_minus _ _)) (.un _ h1)))
    · simp only [xmlFactor, bareFactor, if_true, rowAll_cons, rowAll_nil, xml_real, ht, row_minus]
      simp only [List.append_nil, List.cons_append, List.nil_append]
      exact .negative (.term (.number hw (h3 rest hs trivial)) (h2 rest hs))
  · have hpx : ∀ v, x = .real v → PlainNum num v := fun v hv => by
      subst hv
      exact (hcl (.real v) (by simp)).resolve_right fun hm' => hm ⟨v, rfl, hm'⟩
    obtain ⟨g, hg, hr⟩ := hfac x (by simp) hpx
    obtain ⟨⟨f, h1, h2⟩, h3⟩ := times_read (num := num) hfs hp' hchain g
    refine ⟨f, .trans (.symm hsame) (.trans (fold_congr hg _) h1), fun rest hs => ?_⟩
    rw [List.append_assoc]
    exact .positive (factor_start (hcl x (by simp)) hpx _).2.1 (.term (hr _ (h3 rest hs)) (h2 rest hs))

theorem sum_tail {l : List (Expr K)} (h : ∀ x ∈ l, AsSummand num x) : ∀ acc, ∃ f, SameReading (l.foldl (.bin .add) acc) f ∧
    ∀ rest h r, Stop rest → Reads num (.more f) rest h r →
      Reads num (.more acc) (Xml.rowAll ((l.map xml).flatMap fun y => [mo ['+'], y]) ++ rest) h r := by
  induction l with
  | nil => exact fun acc => ⟨acc, .refl _, fun rest h r _ hm => by simpa [rowAll_nil] using hm⟩
  | cons x l ih =>
    intro acc
    obtain ⟨g, h1, h2⟩ := h x (by simp) acc
    obtain ⟨f, h3, h4⟩ := ih (fun y hy => h y (by simp [hy])) g
    refine ⟨f, .trans (fold_congr h1 l) h3, fun rest u r hs hm => ?_⟩
    have := h4 rest u r hs hm
    have hst : Stop (Xml.rowAll ((l.map xml).flatMap fun y => [mo ['+'], y]) ++ rest) := by
      cases l with
      | nil => simpa [rowAll_nil] using hs
      | cons y l =>
        simp only [List.map_cons, List.flatMap_cons, List.cons_append, rowAll_cons, row_mo]
        exact stop_plus _
    have := h2 _ u r hst this
    simp only [List.map_cons, List.flatMap_cons, rowAll_append, rowAll_cons, row_mo, rowAll_nil, List.append_nil]
    simpa using this

theorem sub_rest {a b : Expr K} (h : Clear num (.bin .sub a b)) (hb : AsWhole num b) : ∃ g, SameReading b g ∧
    ∀ rest, Stop rest → Reads num .signed (Xml.rowAll (xmlSubtrahend b (xml b)) ++ rest) g rest := by
  have hp : ∃ g, SameReading b g ∧ ∀ rest, Stop rest → Reads num .signed (Xml.rowAll (inParens (xml b)) ++ rest) g rest := by
    obtain ⟨g, h1, h2⟩ := hb.parens
    refine ⟨g, h1, fun rest hs => ?_⟩
    rw [row_parens]
    exact reads_term (by simpa using h2 rest) hs (by simp [NextIs, mo])
  by_cases hr : isReal b = true
  · cases b with
    | real v =>
      simp only [xmlSubtrahend, cast]
      split
      · rw [rowAll_cons, rowAll_nil, List.append_nil, xml_real]
        rcases h.2 with hv | ⟨t, w, ht, hw, rfl⟩
        · refine ⟨_, .refl _, fun rest hs => ?_⟩
          rw [row_mn hv.1]
          exact reads_term (.number hv.2 hs.digits) hs (by simp [NextIs, mo, mn])
        · refine ⟨_, .symm (.minus w), fun rest hs => ?_⟩
          rw [ht, row_minus]
          exact .negative (.term (.number hw hs.digits) (.last hs.1 hs.2))
      · exact hp
    | _ => simp [isReal] at hr
  · rw [sub_of_not_real (by simpa using hr)]
    exact hp

theorem mat_row (m : Mat K) : (xml (.mat m)).row = [mo ['['], .node (chars! "mtable") ((MatText.grid m).map fun row =>
    .node (chars! "mtr") (row.map fun v => .node (chars! "mtd") [mn (NumText.fmt17 v)])), mo [']']] := by
  have hx : xml (.mat m) = xmlMatrix m := xml_eq (by rw [mathML])
  have grid : xmlMatrix m = mrow [mo ['['], .node (chars! "mtable") ((MatText.grid m).map fun row =>
      .node (chars! "mtr") (row.map fun v => .node (chars! "mtd") [mn (NumText.fmt17 v)])), mo [']']] := by
    simp only [xmlMatrix, MatText.grid, List.map_map, Function.comp_def]
  have table : ∀ kids : List Xml, (Xml.node (chars! "mtable") kids).row = [.node (chars! "mtable") kids] := by
    intro kids
    rw [Xml.row.eq_def]
    simp only []
    rw [if_neg (by decide)]
    split
    · rw [if_neg (fun h => absurd h.1 (by decide))]
    · rfl
  rw [hx, grid, row_mrow, rowAll_cons, rowAll_cons, rowAll_cons, rowAll_nil, row_mo, row_mo, table]
  rfl

theorem mat_read {m : Mat K} (h : Clear num (.mat m)) (rest : List Xml) :
    Reads num .factor ((xml (.mat m)).row ++ rest) (.mat m) rest := by
  obtain ⟨h1, h2, h3⟩ := h
  rw [mat_row]
  have mem : ∀ row ∈ MatText.grid m, ∀ v ∈ row, v ∈ m.data := by
    intro row h1 v h4
    rw [← MatText.grid_flatten h2]
    exact List.mem_flatten.2 ⟨row, h1, h4⟩
  have ht : TableReads num ((MatText.grid m).map fun row =>
      .node (chars! "mtr") (row.map fun v => .node (chars! "mtd") [mn (NumText.fmt17 v)])) (MatText.grid m) := by
    unfold TableReads
    rw [List.forall₂_map_left_iff]
    refine List.forall₂_same.2 fun row hr => ⟨_, rfl, ?_⟩
    rw [List.forall₂_map_left_iff]
    exact List.forall₂_same.2 fun v hv => ⟨_, rfl, h3 v (mem row hr v hv)⟩
  have := Reads.table (rest := rest) (c := m.cols) ht (by
    intro h
    have := MatText.grid_length m
    rw [h] at this
    simp only [List.length_nil] at this
    omega) (MatText.grid_width)
  rw [MatText.grid_length, MatText.grid_flatten h2] at this
  exact this

theorem read_all (n : ℕ) : ∀ e : Expr K, e.size ≤ n → Clear num e →
    AsSum num e ∧ AsSummand num e ∧ (Single num e → AsSingle num e) := by
  induction n with
  | zero => intro e he; cases e <;> simp [Expr.size] at he
  | succ n ihn =>
    intro e he hc
    have whole : ∀ f : Expr K, f.size < e.size → Clear num f → AsWhole num f := fun f hf hcf =>
      (ihn f (by omega) hcf).1.whole
    have signed : ¬ Single num e → AsSigned num e → AsSum num e ∧ AsSummand num e ∧ (Single num e → AsSingle num e) :=
      fun hn h => ⟨h.sum, h.summand, fun h => absurd h hn⟩
    have atom : (∃ f, SameReading e f ∧ ∀ rest, Stop rest → Reads num .factor ((xml e).row ++ rest) f rest ∧
        ¬ NextIs ['-'] ((xml e).row ++ rest)) → AsSum num e ∧ AsSummand num e ∧ (Single num e → AsSingle num e) := by
      rintro ⟨f, h1, h2⟩
      have h : AsSigned num e := ⟨f, h1, fun rest hs => reads_term (h2 rest hs).1 hs (h2 rest hs).2⟩
      exact ⟨h.sum, h.summand, fun _ => ⟨f, h1, fun rest hs => (h2 rest hs).1⟩⟩
    cases e with
    | real v =>
      rcases hc with hv | ⟨t, w, ht, hw, rfl⟩
      · refine atom ⟨_, .refl _, fun rest hs => ?_⟩
        rw [xml_real, row_mn hv.1]
        exact ⟨.number hv.2 hs.digits, by simp [NextIs, mo, mn]⟩
      · refine signed (fun h => h.1 (by rw [ht]; rfl)) ⟨_, .symm (.minus w), fun rest hs => ?_⟩
        rw [xml_real, ht, row_minus]
        exact .negative (.term (.number hw hs.digits) (.last hs.1 hs.2))
    | imag =>
      refine atom ⟨_, .refl _, fun rest hs => ?_⟩
      rw [xml_imag, row_mi]
      exact ⟨.name _ _, by simp [NextIs, mo, mi]⟩
    | euler =>
      refine atom ⟨_, .refl _, fun rest hs => ?_⟩
      rw [xml_euler, row_mi]
      exact ⟨.name _ _, by simp [NextIs, mo, mi]⟩
    | pi =>
      refine atom ⟨_, .refl _, fun rest hs => ?_⟩
      rw [xml_pi, row_mi]
      exact ⟨.name _ _, by simp [NextIs, mo, mi]⟩
    | var m =>
      refine atom ⟨_, .refl _, fun rest hs => ?_⟩
      rw [xml_var, row_mi]
      have := Reads.name (num := num) rest m
      rw [nameOf_var hc] at this
      exact ⟨this, by simp [NextIs, mo, mi]⟩
    | undef =>
      refine atom ⟨_, .refl _, fun rest hs => ?_⟩
      rw [xml_undef]
      simp only [Xml.row]
      rw [if_neg (by simp)]
      exact ⟨.undefined _, by simp [NextIs, mo]⟩
    | mat m => exact atom ⟨_, .refl _, fun rest _ => ⟨mat_read hc rest, by rw [mat_row]; simp [NextIs, mo]⟩⟩
    | absent => exact hc.elim
    | un op a =>
      cases op with
      | sine => exact hc.elim
      | neg =>
        obtain ⟨f, h1, h2⟩ := (whole a (by simp [Expr.size]) hc).parens
        refine signed (fun h => h) ⟨.neg f, .un _ h1, fun rest hs => ?_⟩
        rw [xml_neg (Clear.good (num := num) hc).un, row_mrow, rowAll_append, row_parens, rowAll_cons, rowAll_nil, row_mo]
        exact .negative (.term (by simpa using h2 rest) (.last hs.1 hs.2))
      | mag =>
        obtain ⟨f, h1, h2⟩ := whole a (by simp [Expr.size]) hc
        refine atom ⟨.mag f, .un _ h1, fun rest hs => ?_⟩
        rw [xml_mag (Clear.good (num := num) hc).un, row_mrow, rowAll_cons, rowAll_cons, rowAll_cons, rowAll_nil, row_mo]
        have := h2 _ (closes_sign (s := ['|']) (by simp) rest)
        exact ⟨by simpa using Reads.bars this, by simp [NextIs, mo]⟩
    | bin op a b =>
      have ca := hc.both.1
      have cb := hc.both.2
      have ha := whole a (by simp only [Expr.size]; omega) ca
      have hb := whole b (by simp only [Expr.size]; omega) cb
      cases op with
      | mul => exact signed (fun h => h) (product_read hc whole)
      | pow =>
        obtain ⟨f, h1, h2⟩ := pow_read hc ha hb
        exact atom ⟨f, h1, fun rest _ => ⟨h2 rest, by rw [pow_row hc]; simp [NextIs, mo]⟩⟩
      | log =>
        obtain ⟨f, h1, h2⟩ := log_read hc ha hb
        exact atom ⟨f, h1, fun rest _ => ⟨h2 rest, by
          obtain ⟨l, hl⟩ := log_row hc
          rw [hl]; simp [NextIs, mo]⟩⟩
      | div =>
        obtain ⟨f, h1, h2⟩ := ha.nil
        obtain ⟨g, h3, h4⟩ := hb.nil
        refine atom ⟨.div f g, .bin _ h1 h3, fun rest _ => ?_⟩
        rw [xml_bin (by decide) (by decide) hc.good]
        simp only [xmlBin]
        rw [row_frac]
        exact ⟨.fraction h2 h4, by simp [NextIs, mo]⟩
      | deriv =>
        obtain ⟨f, h1, h2⟩ := ha
        obtain ⟨g, h3, h4⟩ := hb.nil
        refine atom ⟨.deriv f g, .bin _ h1 h3, fun rest _ => ?_⟩
        rw [xml_bin (by decide) (by decide) hc.good]
        simp only [xmlBin]
        rw [row_mrow, rowAll_append, row_parens, rowAll_cons, rowAll_nil, row_frac]
        simp only [List.append_nil, List.cons_append, List.nil_append, List.append_assoc]
        exact ⟨.derivative h4 (h2 _ (closes_sign (by simp) rest)), by simp [NextIs, mo]⟩
      | integ =>
        obtain ⟨f, h1, h2⟩ := ha
        obtain ⟨g, h3, h4⟩ := (ihn b (by simp only [Expr.size] at he; omega) cb).2.2 hc.2.2
        refine atom ⟨.integ f g, .bin _ h1 h3, fun rest hs => ?_⟩
        rw [xml_bin (by decide) (by decide) hc.good]
        simp only [xmlBin]
        rw [row_mrow, rowAll_cons, rowAll_cons, rowAll_cons, rowAll_nil, row_mo, row_mrow, rowAll_cons, rowAll_cons, rowAll_nil, row_mo]
        simp only [List.append_nil, List.cons_append, List.nil_append, List.append_assoc]
        exact ⟨.integral (h2 _ (closes_sign (by simp) _)) (h4 rest hs), by simp [NextIs, mo]⟩
      | sub =>
        have ha' := ihn a (by simp only [Expr.size] at he; omega) ca
        obtain ⟨g, hg, hr⟩ := sub_rest hc hb
        rw [← and_assoc]
        refine ⟨?_, fun h => h.elim⟩
        unfold AsSum AsSummand
        rw [xml_bin (by decide) (by decide) hc.good]
        simp only [xmlBin]
        rw [row_mrow, rowAll_append, rowAll_cons, rowAll_cons, rowAll_nil, row_mo]
        simp only [List.append_nil, List.cons_append, List.nil_append, List.append_assoc]
        constructor
        · obtain ⟨f, h1, h2⟩ := ha'.1
          exact ⟨.sub f g, .bin _ h1 hg, fun rest h r hs hm => h2 _ h r (stop_minus _) (.minus (hr rest hs) hm)⟩
        · intro acc
          obtain ⟨f, h1, h2⟩ := ha'.2.1 acc
          refine ⟨.sub f g, .trans (.symm (.differences _ _ _)) (.bin _ h1 hg), fun rest h r hs hm => ?_⟩
          exact h2 _ h r (stop_minus _) (.minus (hr rest hs) hm)
      | add =>
        obtain ⟨x, y, l, hl⟩ := flat_cons hc.good
        have hcl : ∀ z ∈ flatten .add a b, Clear num z := fun z hz => by
          rcases List.mem_append.1 hz with hz | hz
          · exact ca.flat z hz
          · exact cb.flat z hz
        have hsum : ∀ z ∈ flatten .add a b, AsSum num z ∧ AsSummand num z ∧ (Single num z → AsSingle num z) := fun z hz =>
          ihn z (by have := flatten_size .add a b z hz; omega) (hcl z hz)
        have hsame := fold_flatten (.inl rfl) hc.good.left.1 hc.good.right.1 hl
        rw [hl] at hsum
        rw [← and_assoc]
        refine ⟨?_, fun h => h.elim⟩
        unfold AsSum AsSummand
        rw [xml_add hc.good, hl, row_mrow]
        simp only [List.map_cons, sumRow]
        rw [rowAll_cons]
        have tail := sum_tail (num := num) (l := y :: l) fun z hz => (hsum z (List.mem_cons_of_mem _ hz)).2.1
        have hst : ∀ rest, Stop (Xml.rowAll (((y :: l).map xml).flatMap fun y => [mo ['+'], y]) ++ rest) := by
          intro rest
          simp only [List.map_cons, List.flatMap_cons, List.cons_append, rowAll_cons, row_mo]
          exact stop_plus _
        constructor
        · obtain ⟨f, h1, h2⟩ := (hsum x (by simp)).1
          obtain ⟨g, h3, h4⟩ := tail f
          refine ⟨g, .trans (.symm hsame) (.trans (fold_congr h1 _) h3), fun rest h r hs hm => ?_⟩
          rw [List.append_assoc]
          exact h2 _ h r (hst rest) (h4 rest h r hs hm)
        · intro acc
          obtain ⟨f, h1, h2⟩ := (hsum x (by simp)).2.1 acc
          obtain ⟨g, h3, h4⟩ := tail f
          refine ⟨g, ?_, fun rest h r hs hm => ?_⟩
          · refine .trans ?_ (.trans (fold_congr h1 _) h3)
            have e1 := fold_flat (.inl rfl) hc.good.1 acc
            simp only [flatOp, if_true] at e1
            unfold flatten at hl
            rw [hl] at e1
            exact .symm e1
          · rw [List.append_assoc]
            exact h2 _ h r (hst rest) (h4 rest h r hs hm)

end

end ML
end Oasis
