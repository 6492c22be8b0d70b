import Verif.Spec.Layout
import Verif.Proofs.InFixText

/-! # `words` finds the words of a layout -/

namespace Oasis
open InFix

theorem words_blanks {b : Str} (hb : Blanks b) (s : Str) : words (b ++ s) = words s := by
  induction b with
  | nil => rfl
  | cons c b ih =>
    have hc : isSpace c = true := (blank_iff c).1 (hb c (by simp))
    rw [List.cons_append, words, wordsFrom, if_pos hc]
    exact ih (fun d hd => hb d (by simp [hd]))

theorem word_noblank {t : Str} (h : Word t) : ∀ c ∈ t, isSpace c = false := by
  intro c hc
  have := h.2 c hc
  rw [blank_iff] at this
  simpa using this

theorem words_word_blank {t : Str} (h : Word t) {c : Char} (hc : Blank c) (rest : Str) :
    words (t ++ c :: rest) = t :: words rest := by
  have e : isSpace c = true := (blank_iff c).1 hc
  rw [words, wordsFrom_plain (word_noblank h), List.append_nil, wordsFrom, if_pos e, endWord_reverse h.1, words]

theorem words_of_layout {ts : List Str} {s : Str} (h : Layout ts s) : words s = ts := by
  induction h with
  | nil hb => have := words_blanks hb []; simpa [words, wordsFrom, endWord] using this
  | last hb ht => rw [words_blanks hb, words_plain_end ht.1 (word_noblank ht)]
  | cons hb ht hc _ ih => rw [List.append_assoc, words_blanks hb, words_word_blank ht hc, ih]

theorem layout_from (s : Str) : ∀ t : Str, (∀ c ∈ t, ¬ Blank c) →
    Layout (wordsFrom s t.reverse) (t ++ s) := by
  induction s with
  | nil =>
    intro t ht
    by_cases h0 : t = []
    · subst h0; exact .nil (by intro c hc; simp at hc)
    · rw [wordsFrom, endWord_reverse h0, List.append_nil]
      exact Layout.last (b := []) (by intro c hc; simp at hc) ⟨h0, ht⟩
  | cons c s ih =>
    intro t ht
    rw [wordsFrom]
    by_cases hc : isSpace c = true
    · rw [if_pos hc]
      have ih' := ih [] (by simp)
      have hb := (blank_iff c).2 hc
      by_cases h0 : t = []
      · subst h0
        simp only [List.reverse_nil, endWord, if_true, List.nil_append] at *
        generalize wordsFrom s [] = ws at *
        have hcons : ∀ b : Str, Blanks b → Blanks (c :: b) := by
          intro b h d hd
          rcases List.mem_cons.1 hd with rfl | hd
          · exact hb
          · exact h d hd
        cases ih' with
        | nil h => exact .nil (hcons _ h)
        | last h1 h2 => exact Layout.last (hcons _ h1) h2
        | cons h1 h2 h3 h4 => exact Layout.cons (hcons _ h1) h2 h3 h4
      · rw [endWord_reverse h0]
        exact Layout.cons (b := []) (by intro d hd; simp at hd) ⟨h0, ht⟩ hb ih'
    · rw [if_neg hc]
      have hb : ¬ Blank c := fun h => hc ((blank_iff c).1 h)
      have := ih (t ++ [c]) (by
        intro d hd
        rcases List.mem_append.1 hd with hd | hd
        · exact ht d hd
        · simp only [List.mem_singleton] at hd; exact hd ▸ hb)
      simpa using this

theorem layout_words (s : Str) : Layout (words s) s := layout_from s [] (by simp)

theorem layout_iff {ts : List Str} {s : Str} : Layout ts s ↔ words s = ts :=
  ⟨words_of_layout, fun h => h ▸ layout_words s⟩

end Oasis
