import Verif.Proofs.InFixUnique

/-! # The TeX text of a matrix -/

namespace Oasis
open InFix
variable {K : Type} [Num K] [NumText K]

namespace MatText

/-- the rows of a matrix -/
def grid (m : Mat K) : List (List K) := (List.range m.rows).map fun r => (List.range m.cols).map fun c => m.get r c

theorem grid_flatten {m : Mat K} (h : m.data.length = m.rows * m.cols) : (grid m).flatten = m.data := by
  obtain ⟨r, c, d⟩ := m
  simp only at h
  have key : ∀ (r : ℕ) (d : List K), d.length = r * c → ((List.range r).map fun i => (List.range c).map fun j => d.getD (i * c + j) Num.zero).flatten = d := by
    intro r
    induction r with
    | zero => intro d h; simp at h; subst h; rfl
    | succ r ih =>
      intro d h
      rw [List.range_succ_eq_map, List.map_cons, List.flatten_cons, List.map_map]
      have h1 : ((List.range c).map fun j => d.getD (0 * c + j) Num.zero) = d.take c := by
        refine List.ext_getElem ?_ fun k k1 k2 => ?_
        · rw [List.length_map, List.length_range, List.length_take, h, Nat.succ_mul]; omega
        · rw [List.length_map, List.length_range] at k1
          have : k < d.length := by rw [h, Nat.succ_mul]; omega
          simp [List.getD_eq_getElem?_getD, List.getElem?_eq_getElem this]
      have h2 : ((List.range r).map ((fun i => (List.range c).map fun j => d.getD (i * c + j) Num.zero) ∘ Nat.succ)) =
          (List.range r).map fun i => (List.range c).map fun j => (d.drop c).getD (i * c + j) Num.zero := by
        refine List.map_congr_left fun i _ => List.map_congr_left fun j _ => ?_
        show d.getD ((i + 1) * c + j) Num.zero = _
        rw [List.getD_eq_getElem?_getD, List.getD_eq_getElem?_getD, List.getElem?_drop]
        congr 2
        rw [Nat.succ_mul]; omega
      rw [h1, h2, ih (d.drop c) (by rw [List.length_drop, h, Nat.succ_mul]; omega), List.take_append_drop]
  exact key r d h

theorem grid_length (m : Mat K) : (grid m).length = m.rows := by simp [grid]

theorem grid_width {m : Mat K} : ∀ row ∈ grid m, row.length = m.cols := by
  intro row h
  obtain ⟨r, _, rfl⟩ := List.mem_map.1 h
  simp

theorem grid_inj {m n : Mat K} (hm : m.data.length = m.rows * m.cols) (hn : n.data.length = n.rows * n.cols) (h0 : 0 < m.rows)
    (h : grid m = grid n) : m = n := by
  have hd : m.data = n.data := by rw [← grid_flatten hm, ← grid_flatten hn, h]
  have hr : m.rows = n.rows := by rw [← grid_length m, ← grid_length n, h]
  have hc : m.cols = n.cols := by
    cases hg : grid m with
    | nil => have := grid_length m; rw [hg] at this; simp at this; omega
    | cons row l =>
      have h1 := grid_width (m := m) row (by rw [hg]; simp)
      have h2 := grid_width (m := n) row (by rw [← h, hg]; simp)
      rw [← h1, ← h2]
  cases m; cases n
  simp only at hd hr hc
  subst hd; subst hr; subst hc
  rfl

theorem texMatrix_grid (m : Mat K) : texMatrix m = chars! "\\begin{bmatrix}\n" ++
    ((grid m).flatMap fun row => texRow (row.map (NumText.fmt 5))) ++ chars! "\\end{bmatrix}\n" := by
  unfold texMatrix grid
  rw [List.flatMap_map]
  simp only [List.map_map]
  rfl

/-! ## Beginnings -/

theorem number_head {t : Str} (h : NumberText t) : ∃ c s, t = c :: s ∧ c ≠ '\\' ∧ c ≠ '&' := by
  obtain ⟨s, m, x, rfl, hs, ⟨c, m', rfl, hc⟩, _⟩ := h
  rcases hs with rfl | rfl
  · refine ⟨c, m' ++ x, by simp, ?_, ?_⟩ <;> (rintro rfl; revert hc; decide)
  · exact ⟨'-', c :: m' ++ x, by simp, by decide, by decide⟩

theorem row_prefix : ∀ (l l' : List Str) (u w : Str), (∀ t ∈ l, NumberText t) → (∀ t ∈ l', NumberText t) →
    texRow l ++ u = texRow l' ++ w → l = l' ∧ u = w
  | [], [], u, w, _, _, h => ⟨rfl, by simpa [texRow, List.intercalate] using h⟩
  | [], t :: l, u, w, _, h', h => by
    obtain ⟨c, s, hc, h1, _⟩ := number_head (h' t (by simp))
    subst hc
    cases l <;> simp [texRow, List.intercalate, List.intersperse] at h <;> exact absurd h.1.symm h1
  | t :: l, [], u, w, h', _, h => by
    obtain ⟨c, s, hc, h1, _⟩ := number_head (h' t (by simp))
    subst hc
    cases l <;> simp [texRow, List.intercalate, List.intersperse] at h <;> exact absurd h.1 h1
  | t :: l, t' :: l', u, w, h1, h2, h => by
    have next : ∀ (t : Str) (l : List Str) (u : Str), texRow (t :: l) ++ u = t ++ ((if l = [] then chars! "\\\\\n" else '&' :: texRow l) ++ u) := by
      intro t l u
      cases l <;> simp [texRow, List.intercalate, List.intersperse]
    rw [next, next] at h
    have st : ∀ (l : List Str) (u : Str), Stop ((if l = [] then chars! "\\\\\n" else '&' :: texRow l) ++ u) := by
      intro l u
      split
      · exact stop_cons (by decide)
      · exact stop_cons (by decide)
    obtain ⟨rfl, h3⟩ := number_prefix (h1 t (by simp)) (h2 t' (by simp)) (st l u) (st l' w) h
    by_cases e : l = [] <;> by_cases e' : l' = []
    · subst e; subst e'; exact ⟨rfl, by simpa using h3⟩
    · rw [if_pos e, if_neg e'] at h3; simp at h3
    · rw [if_neg e, if_pos e'] at h3; simp at h3
    · rw [if_neg e, if_neg e'] at h3
      obtain ⟨rfl, h4⟩ := row_prefix l l' u w (fun s hs => h1 s (by simp [hs])) (fun s hs => h2 s (by simp [hs])) (by simpa using h3)
      exact ⟨rfl, h4⟩

/-- a row does not begin like the end of the matrix -/
theorem row_head (l : List Str) (h : ∀ t ∈ l, NumberText t) (u w : Str) : texRow l ++ u ≠ '\\' :: 'e' :: w := by
  intro e
  cases l with
  | nil => simp [texRow, List.intercalate] at e
  | cons t l =>
    obtain ⟨c, s, hc, h1, _⟩ := number_head (h t (by simp))
    subst hc
    cases l <;> simp [texRow, List.intercalate, List.intersperse] at e <;> exact h1 e.1

theorem rows_prefix : ∀ (R S : List (List Str)) (u w : Str), (∀ l ∈ R, ∀ t ∈ l, NumberText t) → (∀ l ∈ S, ∀ t ∈ l, NumberText t) →
    R.flatMap texRow ++ ('\\' :: 'e' :: u) = S.flatMap texRow ++ ('\\' :: 'e' :: w) → R = S ∧ u = w
  | [], [], u, w, _, _, h => ⟨rfl, by simpa using h⟩
  | [], l :: S, u, w, _, h', h => by
    simp only [List.flatMap_nil, List.nil_append, List.flatMap_cons, List.append_assoc] at h
    exact absurd h.symm (row_head l (h' l (by simp)) _ _)
  | l :: R, [], u, w, h', _, h => by
    simp only [List.flatMap_nil, List.nil_append, List.flatMap_cons, List.append_assoc] at h
    exact absurd h (row_head l (h' l (by simp)) _ _)
  | l :: R, l' :: S, u, w, h1, h2, h => by
    simp only [List.flatMap_cons, List.append_assoc] at h
    obtain ⟨rfl, h3⟩ := row_prefix l l' _ _ (h1 l (by simp)) (h2 l' (by simp)) h
    obtain ⟨rfl, h4⟩ := rows_prefix R S u w (fun s hs => h1 s (by simp [hs])) (fun s hs => h2 s (by simp [hs])) h3
    exact ⟨rfl, h4⟩

theorem map_inj {α β : Type} {f : α → β} : ∀ {l l' : List α}, (∀ x ∈ l, ∀ y ∈ l', f x = f y → x = y) → l.map f = l'.map f → l = l'
  | [], [], _, _ => rfl
  | [], _ :: _, _, h => by simp at h
  | _ :: _, [], _, h => by simp at h
  | x :: l, y :: l', hf, h => by
    simp only [List.map_cons, List.cons.injEq] at h
    rw [hf x (by simp) y (by simp) h.1, map_inj (fun a ha b hb => hf a (by simp [ha]) b (by simp [hb])) h.2]

/-- the text of a matrix, followed by anything, determines the matrix -/
theorem mat_prefix {m n : Mat K} (hm : 0 < m.rows ∧ m.data.length = m.rows * m.cols ∧ ∀ v ∈ m.data, NumberText (NumText.fmt 5 v))
    (hn : 0 < n.rows ∧ n.data.length = n.rows * n.cols ∧ ∀ v ∈ n.data, NumberText (NumText.fmt 5 v))
    (hd : ∀ v ∈ m.data, ∀ w ∈ n.data, (NumText.fmt 5 v : Str) = NumText.fmt 5 w → v = w) {u w : Str}
    (h : texMatrix m ++ u = texMatrix n ++ w) : m = n ∧ u = w := by
  have mem : ∀ {m : Mat K}, m.data.length = m.rows * m.cols → ∀ row ∈ grid m, ∀ v ∈ row, v ∈ m.data := by
    intro m h row h1 v h2
    rw [← grid_flatten h]
    exact List.mem_flatten.2 ⟨row, h1, h2⟩
  rw [texMatrix_grid, texMatrix_grid, List.append_assoc, List.append_assoc, List.append_assoc, List.append_assoc, List.append_cancel_left_eq] at h
  have e : ∀ g : List (List K), (g.flatMap fun row => texRow (row.map (NumText.fmt 5))) = (g.map fun row => row.map (NumText.fmt 5)).flatMap texRow := by
    intro g; rw [List.flatMap_map]
  rw [e, e] at h
  obtain ⟨h1, h2⟩ := rows_prefix _ _ (chars! "nd{bmatrix}\n" ++ u) (chars! "nd{bmatrix}\n" ++ w) (by
      intro l hl t ht
      obtain ⟨row, hr, rfl⟩ := List.mem_map.1 hl
      obtain ⟨v, hv, rfl⟩ := List.mem_map.1 ht
      exact hm.2.2 v (mem hm.2.1 row hr v hv)) (by
      intro l hl t ht
      obtain ⟨row, hr, rfl⟩ := List.mem_map.1 hl
      obtain ⟨v, hv, rfl⟩ := List.mem_map.1 ht
      exact hn.2.2 v (mem hn.2.1 row hr v hv)) h
  refine ⟨grid_inj hm.2.1 hn.2.1 hm.1 (map_inj (fun row hr row' hr' => map_inj fun v hv v' hv' =>
    hd v (mem hm.2.1 row hr v hv) v' (mem hn.2.1 row' hr' v' hv')) h1), List.append_cancel_left h2⟩

/-! ## Cells -/

theorem parts_none {c : Char} : ∀ {s : Str}, c ∉ s → partsAt c s = [s]
  | [], _ => rfl
  | d :: s, h => by
    simp only [List.mem_cons, not_or] at h
    simp only [partsAt, Ne.symm h.1, if_false, parts_none h.2]

theorem parts_first {c : Char} : ∀ {s : Str} (u : Str), c ∉ s → partsAt c (s ++ c :: u) = s :: partsAt c u
  | [], u, _ => by simp [partsAt]
  | d :: s, u, h => by
    simp only [List.mem_cons, not_or] at h
    simp only [List.cons_append, partsAt, Ne.symm h.1, if_false, parts_first u h.2]

theorem parts_row : ∀ {l : List Str}, l ≠ [] → (∀ t ∈ l, '&' ∉ t) → partsAt '&' (List.intercalate ['&'] l) = l
  | [], h, _ => absurd rfl h
  | [t], _, h => by simpa [List.intercalate, List.intersperse] using parts_none (h t (by simp))
  | t :: s :: l, _, h => by
    have e : List.intercalate ['&'] (t :: s :: l) = t ++ '&' :: List.intercalate ['&'] (s :: l) := by
      simp [List.intercalate, List.intersperse]
    rw [e, parts_first _ (h t (by simp)), parts_row (by simp) fun x hx => h x (by simp [hx])]

theorem number_chars {t : Str} (h : NumberText t) : '&' ∉ t ∧ '\n' ∉ t := by
  obtain ⟨s, m, x, rfl, hs, _, hm, hx⟩ := h
  have key : ∀ c : Char, ¬ Digit c → c ≠ '.' → c ≠ '-' → c ≠ '+' → c ≠ 'e' → c ∉ s ++ m ++ x := by
    intro c h1 h2 h3 h4 h5 h
    simp only [List.mem_append] at h
    rcases h with (h | h) | h
    · rcases hs with rfl | rfl
      · simp at h
      · simp at h; exact h3 h
    · rcases hm c h with h | h
      · exact h1 h
      · exact h2 h
    · rcases hx with rfl | ⟨d, ds, rfl, hd, hds⟩
      · simp at h
      · simp only [List.mem_cons] at h
        rcases h with h | h | h
        · exact h5 h
        · rcases hd with rfl | rfl
          · exact h4 h
          · exact h3 h
        · exact h1 (hds c h)
  constructor <;> apply key <;> decide

theorem cells {m : Mat K} (h0 : 0 < m.cols) (hl : m.data.length = m.rows * m.cols) (hv : ∀ v ∈ m.data, NumberText (NumText.fmt 5 v)) :
    texCells (texMatrix m) = (grid m).map fun row => row.map (NumText.fmt 5) := by
  have mem : ∀ row ∈ grid m, ∀ v ∈ row, v ∈ m.data := by
    intro row h1 v h2
    rw [← grid_flatten hl]
    exact List.mem_flatten.2 ⟨row, h1, h2⟩
  have lines : ∀ g : List (List K), (∀ row ∈ g, ∀ v ∈ row, v ∈ m.data) →
      partsAt '\n' ((g.flatMap fun row => texRow (row.map (NumText.fmt 5))) ++ chars! "\\end{bmatrix}\n") =
        (g.map fun row => List.intercalate ['&'] (row.map (NumText.fmt 5)) ++ ['\\', '\\']) ++ [chars! "\\end{bmatrix}", []] := by
    intro g
    induction g with
    | nil => intro _; rfl
    | cons row g ih =>
      intro hg
      have nl : '\n' ∉ List.intercalate ['&'] (row.map (NumText.fmt 5)) ++ ['\\', '\\'] := by
        have : ∀ l : List Str, (∀ t ∈ l, '\n' ∉ t) → '\n' ∉ List.intercalate ['&'] l := by
          intro l
          induction l with
          | nil => intro _; simp [List.intercalate]
          | cons t l ih' =>
            intro h
            cases l with
            | nil => simpa [List.intercalate, List.intersperse] using h t (by simp)
            | cons s l =>
              have e : List.intercalate ['&'] (t :: s :: l) = t ++ '&' :: List.intercalate ['&'] (s :: l) := by
                simp [List.intercalate, List.intersperse]
              rw [e]
              simp only [List.mem_append, List.mem_cons, not_or]
              exact ⟨h t (by simp), by decide, ih' fun x hx => h x (by simp [hx])⟩
        simp only [List.mem_append, not_or]
        refine ⟨this _ fun t ht => ?_, by decide⟩
        obtain ⟨v, hv', rfl⟩ := List.mem_map.1 ht
        exact (number_chars (hv v (hg row (by simp) v hv'))).2
      have e : ((row :: g).flatMap fun row => texRow (row.map (NumText.fmt 5))) ++ chars! "\\end{bmatrix}\n" =
          (List.intercalate ['&'] (row.map (NumText.fmt 5)) ++ ['\\', '\\']) ++ '\n' ::
            ((g.flatMap fun row => texRow (row.map (NumText.fmt 5))) ++ chars! "\\end{bmatrix}\n") := by
        simp [texRow]
      rw [e, parts_first _ nl, ih fun r hr => hg r (by simp [hr])]
      rfl
  have first : texMatrix m = chars! "\\begin{bmatrix}" ++ '\n' ::
      (((grid m).flatMap fun row => texRow (row.map (NumText.fmt 5))) ++ chars! "\\end{bmatrix}\n") := by
    rw [texMatrix_grid]; simp
  unfold texCells
  rw [first, parts_first _ (by decide), lines (grid m) mem]
  simp only [List.drop_succ_cons, List.drop_zero]
  have drop2 : ∀ (l : List Str) (a b : Str), ((l ++ [a, b]).dropLast).dropLast = l := by
    intro l a b
    rw [show l ++ [a, b] = (l ++ [a]) ++ [b] by simp, List.dropLast_concat, List.dropLast_concat]
  rw [drop2, List.map_map]
  refine List.map_congr_left fun row hr => ?_
  have e2 : ∀ s : Str, (s ++ ['\\', '\\']).dropLast.dropLast = s := by
    intro s
    rw [show s ++ ['\\', '\\'] = (s ++ ['\\']) ++ ['\\'] by simp, List.dropLast_concat, List.dropLast_concat]
  show partsAt '&' (List.intercalate ['&'] (row.map (NumText.fmt 5)) ++ ['\\', '\\']).dropLast.dropLast = _
  rw [e2]
  refine parts_row ?_ fun t ht => ?_
  · intro h
    have := grid_width row hr
    rw [List.map_eq_nil_iff.1 h] at this
    simp at this; omega
  · obtain ⟨v, hv', rfl⟩ := List.mem_map.1 ht
    exact (number_chars (hv v (mem row hr v hv'))).1

end MatText
end Oasis
