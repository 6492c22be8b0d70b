import Mathlib.Data.List.TakeWhile
import Verif.Proofs.CliText
import Verif.Proofs.Hered

/-! # The loop of the command line program, and the nodes a parsed text has -/

namespace Oasis
namespace Cli
open InFix

/-! ## `trim_whitespace` -/

theorem isSpace_false {c : Char} (h : ¬ Blank c) : isSpace c = false := by
  rw [blank_iff] at h
  simpa using h

theorem dropWhile_blanks {p t : Str} (hp : Blanks p) : (p ++ t).dropWhile isSpace = t.dropWhile isSpace :=
  List.dropWhile_append_of_pos fun c hc => (blank_iff c).1 (hp c hc)

theorem dropWhile_keep {t : Str} (h : ∀ c ∈ t.head?, ¬ Blank c) : t.dropWhile isSpace = t := by
  cases t with
  | nil => rfl
  | cons c t => rw [List.dropWhile_cons, isSpace_false (h c (by simp)), if_neg (by simp)]

theorem dropWhile_split (s : Str) : ∃ p, s = p ++ s.dropWhile isSpace ∧ Blanks p := by
  refine ⟨s.takeWhile isSpace, (List.takeWhile_append_dropWhile).symm, fun c hc => (blank_iff c).2 ?_⟩
  exact List.mem_takeWhile_imp hc

theorem dropWhile_head (s : Str) : ∀ c ∈ (s.dropWhile isSpace).head?, ¬ Blank c := by
  intro c hc hb
  rw [blank_iff] at hb
  cases h : s.dropWhile isSpace with
  | nil => rw [h] at hc; cases hc
  | cons d t =>
    rw [h] at hc
    simp at hc
    subst hc
    have := List.head_dropWhile_not isSpace (l := s) (w := by rw [h]; simp)
    simp [h, hb] at this

theorem blanks_reverse {p : Str} (h : Blanks p) : Blanks p.reverse := fun c hc => h c (List.mem_reverse.1 hc)

theorem stripped_trim (l : Str) : Stripped l (trim l) := by
  obtain ⟨p, h1, h2⟩ := dropWhile_split l
  obtain ⟨q, h3, h4⟩ := dropWhile_split (l.dropWhile isSpace).reverse
  have e : l.dropWhile isSpace = trim l ++ q.reverse := by
    have := congrArg List.reverse h3
    simpa [trim] using this
  have hl : ∀ c ∈ (trim l).getLast?, ¬ Blank c := by
    intro c hc
    refine dropWhile_head (l.dropWhile isSpace).reverse c ?_
    rw [trim, List.getLast?_reverse] at hc
    exact hc
  refine ⟨p, q.reverse, by rw [List.append_assoc, ← e]; exact h1, h2, blanks_reverse h4, ?_, hl⟩
  intro c hc
  refine dropWhile_head l c ?_
  rw [e]
  cases h : trim l with
  | nil => rw [h] at hc; cases hc
  | cons d t => rw [h] at hc; exact hc

theorem trim_of_stripped {l t : Str} (h : Stripped l t) : trim l = t := by
  obtain ⟨p, q, rfl, hp, hq, h1, h2⟩ := h
  rw [trim, List.append_assoc, dropWhile_blanks hp]
  cases t with
  | nil =>
    rw [List.nil_append]
    have : q.dropWhile isSpace = [] := by
      have := dropWhile_blanks (t := []) hq
      rwa [List.append_nil] at this
    rw [this]; rfl
  | cons c t =>
    rw [dropWhile_keep (t := (c :: t) ++ q) (by simpa using h1), List.reverse_append,
      dropWhile_blanks (blanks_reverse hq), dropWhile_keep, List.reverse_reverse]
    intro d hd
    rw [List.head?_reverse] at hd
    exact h2 d hd

theorem trim_blanks {l : Str} : trim l = [] ↔ Blanks l := by
  constructor
  · intro h
    obtain ⟨p, q, e, hp, hq, _⟩ := stripped_trim l
    rw [h, List.append_nil] at e
    intro c hc
    rw [e] at hc
    exact (List.mem_append.1 hc).elim (hp c) (hq c)
  · intro h
    exact trim_of_stripped ⟨l, [], by simp, h, fun c hc => absurd hc (by simp), by simp, by simp⟩

/-! ## Questions -/

theorem asked_exists (ls : List Str) : ∃ qs, Asked ls qs := by
  induction ls with
  | nil => exact ⟨[], .nil⟩
  | cons l ls ih =>
    obtain ⟨qs, h⟩ := ih
    by_cases h0 : trim l = []
    · exact ⟨qs, .blank (trim_blanks.1 h0) h⟩
    · by_cases h1 : trim l = ['e', 'x', 'i', 't']
      · exact ⟨[], .exit (h1 ▸ stripped_trim l)⟩
      · exact ⟨_, .question (stripped_trim l) h0 h1 h⟩

theorem asked_unique {ls qs rs : List Str} (h : Asked ls qs) (h' : Asked ls rs) : qs = rs := by
  induction h generalizing rs with
  | nil => cases h'; rfl
  | @blank l ls qs hb _ ih =>
    have hb := trim_blanks.2 hb
    cases h' with
    | blank _ h' => exact ih h'
    | exit h' => rw [trim_of_stripped h'] at hb; cases hb
    | question h' h0 => rw [trim_of_stripped h'] at hb; exact absurd hb h0
  | @exit l ls h =>
    have h := trim_of_stripped h
    cases h' with
    | blank hb _ => rw [trim_blanks.2 hb] at h; cases h
    | exit _ => rfl
    | question h' _ h1 => rw [trim_of_stripped h'] at h; exact absurd h h1
  | @question l t ls qs h h0 h1 _ ih =>
    have h := trim_of_stripped h
    cases h' with
    | blank hb _ => rw [trim_blanks.2 hb] at h; exact absurd h.symm h0
    | exit h' => rw [trim_of_stripped h'] at h; exact absurd h.symm h1
    | question h' _ _ h2 =>
      rw [trim_of_stripped h'] at h
      rw [h, ih h2]

variable {K : Type} [Num K] [NumText K]

theorem session_blank {n : ℕ} {l : Str} {ls : List Str} (h : trim l = []) :
    session K n (l :: ls) = session K n ls := by
  rw [session]; simp [h]

theorem session_exit {n : ℕ} {l : Str} {ls : List Str} (h : trim l = ['e', 'x', 'i', 't']) :
    session K n (l :: ls) = ([], .quit) := by
  rw [session]; simp [h]

theorem session_question {n : ℕ} {l : Str} {ls : List Str} (h0 : trim l ≠ []) (h1 : trim l ≠ ['e', 'x', 'i', 't']) :
    session K n (l :: ls) = match answer (K := K) n (trim l) with
      | none => ([], .stuck)
      | some (.error f, _) => ([], .died f)
      | some (.ok a, _) => (a :: (session K n ls).1, (session K n ls).2) := by
  rw [session]
  simp only [if_neg h0, if_neg h1]
  rfl

/-! ## The nodes of a parsed text -/

section
variable {p : Expr.Head → Prop}
open Expr

/-- nodes of operators on the stack are allowed -/
def OpOk (p : Head → Prop) : IOp → Prop
  | .op o => p (.bin o)
  | .fn f => p (.bin f)
  | .paren => True

omit [Num K] [NumText K] in
theorem reduceWhile_over {q : IOp → Bool} (ops : List IOp) : ∀ {st st' : List (Expr K)} {ops' : List IOp},
    (∀ e ∈ st, e.Over p) → (∀ o ∈ ops, OpOk p o) → reduceWhile q st ops = .ok (st', ops') →
    (∀ e ∈ st', e.Over p) ∧ ∀ o ∈ ops', OpOk p o := by
  induction ops with
  | nil => intro st st' ops' h1 h2 h; cases h; exact ⟨h1, h2⟩
  | cons o ops ih =>
    intro st st' ops' h1 h2 h
    rw [reduceWhile] at h
    split at h
    · unfold processOp at h
      split at h
      · rename_i st'' hs
        split at hs
        · split at hs
          · cases hs
          · rename_i r l st _ o' _ ho
            cases hs; cases ho
            refine ih ?_ (fun x hx => h2 x (by simp [hx])) h
            intro e he
            rcases List.mem_cons.1 he with rfl | he
            · exact ⟨h2 (.op o') (by simp), h1 _ (by simp), h1 _ (by simp)⟩
            · exact h1 e (by simp [he])
          · cases hs
        · cases hs
      · cases h
    · cases h; exact ⟨h1, h2⟩

variable (hr : p .real) (hi : p .imag) (he : p .euler) (hv : ∀ n, p (.var n))
  (ho : ∀ t o n, Operator t o n → p (.bin o))
include hr hi he hv ho

omit [Num K] in
theorem inFixStep_over {opt : ImagOpt} {st st' : List (Expr K)} {ops ops' : List IOp} {t : Str}
    (hf : ∀ f, isFunction t = some f → p (.bin f))
    (h1 : ∀ e ∈ st, e.Over p) (h2 : ∀ o ∈ ops, OpOk p o) (h : inFixStep opt st ops t = .ok (st', ops')) :
    (∀ e ∈ st', e.Over p) ∧ ∀ o ∈ ops', OpOk p o := by
  unfold inFixStep at h
  split at h
  · cases h
    exact ⟨by simpa using ⟨hr, h1⟩, h2⟩
  split at h
  · rename_i f hf'
    cases h
    exact ⟨h1, by simpa using ⟨hf f hf', h2⟩⟩
  split at h
  · rename_i o ho'
    split at h
    · rename_i hr
      cases h
      have := reduceWhile_over ops h1 h2 hr
      refine ⟨this.1, ?_⟩
      intro x hx
      rcases List.mem_cons.1 hx with rfl | hx
      · obtain ⟨n, h'⟩ : ∃ n, Operator t o n := by
          unfold isOperator at ho'
          split at ho'
          · subst_vars; cases ho'; exact ⟨_, .add⟩
          split at ho'
          · subst_vars; cases ho'; exact ⟨_, .sub⟩
          split at ho'
          · subst_vars; cases ho'; exact ⟨_, .mul⟩
          split at ho'
          · subst_vars; cases ho'; exact ⟨_, .div⟩
          split at ho'
          · subst_vars; cases ho'; exact ⟨_, .pow⟩
          · cases ho'
        exact ho _ _ _ h'
      · exact this.2 x hx
    · cases h
  split at h
  · cases h
    exact ⟨h1, by simpa using ⟨trivial, h2⟩⟩
  split at h
  · exact reduceWhile_over ops h1 h2 h
  split at h
  · split at h
    · rename_i hr
      have := reduceWhile_over ops h1 h2 hr
      unfold closeParen at h
      split at h
      · rename_i f ops
        unfold processFunction at h
        split at h
        · rename_i st'' hs
          split at hs
          · cases hs
            cases h
            refine ⟨?_, fun x hx => this.2 x (by simp [hx])⟩
            intro e he
            rcases List.mem_cons.1 he with rfl | he
            · exact ⟨this.2 (.fn f) (by simp), this.1 _ (by simp), this.1 _ (by simp)⟩
            · exact this.1 e (by simp [he])
          · cases hs
        · cases h
      · cases h
        exact ⟨this.1, fun x hx => this.2 x (by simp [hx])⟩
      · cases h
    · cases h
  · cases h
    refine ⟨?_, h2⟩
    intro e he'
    rcases List.mem_cons.1 he' with rfl | he'
    · cases opt <;> simp only [parseName] <;> split_ifs
      · exact hi
      · exact he
      · exact hv _
      · exact hi
      · exact he
      · exact hv _
    · exact h1 e he'

omit [Num K] in
theorem parseTokens_over {opt : ImagOpt} {ts : List Str} (hf : ∀ t ∈ ts, ∀ f, isFunction t = some f → p (.bin f))
    {e : Expr K} (h : parseTokens opt ts = .ok e) : e.Over p := by
  have loop : ∀ (ts : List Str) (st st' : List (Expr K)) (ops ops' : List IOp),
      (∀ t ∈ ts, ∀ f, isFunction t = some f → p (.bin f)) →
      (∀ e ∈ st, e.Over p) → (∀ o ∈ ops, OpOk p o) → inFixLoop opt st ops ts = .ok (st', ops') →
      (∀ e ∈ st', e.Over p) ∧ ∀ o ∈ ops', OpOk p o := by
    intro ts
    induction ts with
    | nil => intro st st' ops ops' _ h1 h2 h; cases h; exact ⟨h1, h2⟩
    | cons t ts ih =>
      intro st st' ops ops' hf h1 h2 h
      rw [inFixLoop] at h
      split at h
      · rename_i hs
        have := inFixStep_over hr hi he hv ho (hf t (by simp)) h1 h2 hs
        exact ih _ _ _ _ (fun u hu => hf u (by simp [hu])) this.1 this.2 h
      · cases h
  unfold parseTokens at h
  split at h
  · rename_i hl
    have h1 := loop _ _ _ _ _ hf (by simp) (by simp) hl
    unfold inFixFinish at h
    split at h
    · cases h
    · rename_i hw
      cases h
      exact (reduceWhile_over _ h1.1 h1.2 hw).1 _ (by simp)
    · cases h
  · cases h

end

/-- the nodes a typed text can have -/
def typable (h : Expr.Head) : Prop :=
  h ≠ .absent ∧ h ≠ .undef ∧ h ≠ .pi ∧ h ≠ .mat ∧ ∀ op, h ≠ .un op

theorem stars_mem {s t : Str} (h : Stars s t) : ∀ c ∈ t, c ∈ s ∨ c = '*' := by
  induction h with
  | nil => intro c hc; cases hc
  | keep d _ ih =>
    intro c hc
    rcases List.mem_cons.1 hc with rfl | hc
    · exact .inl (by simp)
    · exact (ih c hc).imp (fun h => by simp [h]) id
  | star _ ih =>
    intro c hc
    rcases List.mem_cons.1 hc with rfl | hc
    · exact .inr rfl
    · exact ih c hc

theorem mem_words_preProcess {s t : Str} (h : t ∈ words (preProcess s)) : ∀ c ∈ t, c ∈ s ∨ c = '*' := by
  intro c hc
  have h1 : c ∈ nonBlank (preProcess s) := by
    rw [← words_flatten]
    exact List.mem_flatten.2 ⟨t, h, hc⟩
  refine (stars_mem (preProcess_stars s) c h1).imp (fun h => ?_) id
  exact List.mem_of_mem_filter h

omit [Num K] in
theorem parsed_typable {opt : ImagOpt} {s : Str} {e : Expr K} (h : fromInFix opt s = .ok e) : e.Over typable :=
  parseTokens_over (by simp [typable]) (by simp [typable]) (by simp [typable]) (by simp [typable])
    (by simp [typable]) (by simp [typable]) h

omit [Num K] in
theorem parsed_noInteg {opt : ImagOpt} {s : Str} {e : Expr K} (hn : 'n' ∉ s)
    (h : fromInFix opt (preProcess s) = .ok e) : e.Over (fun x => typable x ∧ x ≠ .bin .integ) := by
  refine parseTokens_over (by simp [typable]) (by simp [typable]) (by simp [typable]) (by simp [typable])
    ?_ ?_ h
  · intro t o n ho
    cases ho <;> simp [typable]
  · intro t ht f hf
    refine ⟨by simp [typable], ?_⟩
    intro e
    cases e
    have := isFunction_iff.1 hf
    cases this
    rcases mem_words_preProcess ht 'n' (by simp) with h | h
    · exact hn h
    · cases h

end Cli
end Oasis
