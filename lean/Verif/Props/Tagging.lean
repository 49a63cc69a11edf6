import Verif.Spec.Tagging
import Verif.Props.IndexBox
import Mathlib.Algebra.BigOperators.Intervals
import Mathlib.Data.Nat.Bitwise
import Mathlib.Tactic.Linarith
import Mathlib.Tactic.Ring
import Mathlib.Tactic.FinCases

/-!
# C44, C45, C59, C60: tagging of cells
-/

namespace Fub
variable {K : Type*} [Field K] [LinearOrder K] [IsStrictOrderedRing K]

/-! ## Buffering -/

/-- Applying an idempotent function to all cells of a list. -/
theorem foldl_update_idem {α : Type*} [DecidableEq α] (f : ℤ → ℤ) (hf : ∀ v, f (f v) = f v) (l : List α) (data : α → ℤ) (x : α) :
    l.foldl (fun d c => Function.update d c (f (d c))) data x = if x ∈ l then f (data x) else data x := by
  induction l generalizing data with
  | nil => simp
  | cons c cs ih =>
    rw [List.foldl_cons, ih]
    by_cases hx : x = c
    · subst hx
      simp [hf]
    · simp [hx]

/-- Visiting the cells of a list and applying `f` around every cell that triggers; `f` does not change which cells trigger. -/
theorem foldl_buffer {α : Type*} [DecidableEq α] (f : ℤ → ℤ) (hf : ∀ v, f (f v) = f v) (trig : ℤ → Prop) [DecidablePred trig] (ht : ∀ v, trig (f v) ↔ trig v)
    (nb : α → α → Prop) [∀ c x, Decidable (nb c x)] (step : (α → ℤ) → α → α → ℤ)
    (hstep : ∀ d c x, step d c x = if trig (d c) ∧ nb c x then f (d x) else d x) (l : List α) (data : α → ℤ) (x : α) :
    l.foldl step data x = if ∃ c ∈ l, trig (data c) ∧ nb c x then f (data x) else data x := by
  induction l generalizing data with
  | nil => simp
  | cons c cs ih =>
    rw [List.foldl_cons, ih]
    have htr : ∀ y, trig (step data c y) ↔ trig (data y) := by
      intro y; rw [hstep]; split_ifs <;> simp [ht]
    simp only [htr]
    by_cases h1 : ∃ c ∈ cs, trig (data c) ∧ nb c x
    · rw [if_pos h1, if_pos (by obtain ⟨a, b, e⟩ := h1; exact ⟨a, List.mem_cons_of_mem _ b, e⟩), hstep]
      split_ifs <;> simp [hf]
    · rw [if_neg h1, hstep]
      by_cases h2 : trig (data c) ∧ nb c x
      · rw [if_pos h2, if_pos ⟨c, by simp, h2⟩]
      · rw [if_neg h2, if_neg]
        rintro ⟨a, ha, e⟩
        rcases List.mem_cons.1 ha with rfl | ha
        · exact h2 e
        · exact h1 ⟨a, ha, e⟩

theorem foldl_nested {α β γ : Type*} (f : γ → α → β → γ) (l : List α) (m : List β) (s : γ) :
    l.foldl (fun s a => m.foldl (fun s b => f s a b) s) s = (l.flatMap fun a => m.map fun b => (b, a)).foldl (fun s p => f s p.2 p.1) s := by
  induction l generalizing s with
  | nil => rfl
  | cons a as ih => simp [List.flatMap_cons, List.foldl_append, List.foldl_map, ih]

theorem mem_nested {x : ℤ × ℤ} (a b c d : ℤ) :
    x ∈ ((loopRange c d).flatMap fun l => (loopRange a b).map fun k => (k, l)) ↔ (a ≤ x.1 ∧ x.1 < b) ∧ c ≤ x.2 ∧ x.2 < d := by
  obtain ⟨u, v⟩ := x
  simp only [List.mem_flatMap, List.mem_map, mem_loopRange, Prod.mk.injEq]
  constructor
  · rintro ⟨l, hl, k, hk, rfl, rfl⟩; exact ⟨hk, hl⟩
  · rintro ⟨h1, h2⟩; exact ⟨v, h2, u, h1, rfl, rfl⟩

theorem max3_idem (v : ℤ) : max (max v (3 - v)) (3 - max v (3 - v)) = max v (3 - v) := by omega
theorem max2_idem (v : ℤ) : max (max v (2 - v)) (2 - max v (2 - v)) = max v (2 - v) := by omega

open Classical in
/-- The value of every cell after buffering in two dimensions. -/
theorem tagBuffer2_value (w nx ny : ℤ) (data : ℤ × ℤ → ℤ) (x : ℤ × ℤ) :
    tagBuffer2 w nx ny data x = if ∃ c : ℤ × ℤ, ((0 ≤ c.1 ∧ c.1 < nx) ∧ 0 ≤ c.2 ∧ c.2 < ny) ∧ (data c = 1 ∨ data c = 2) ∧
        ((max (c.1 - w) 0 ≤ x.1 ∧ x.1 < min (c.1 + w) nx) ∧ max (c.2 - w) 0 ≤ x.2 ∧ x.2 < min (c.2 + w) ny)
      then max (data x) (3 - data x) else data x := by
  rw [tagBuffer2, foldl_nested (fun d l k => tagBuffer2Cell w nx ny d (k, l))]
  rw [foldl_buffer (fun v => max v (3 - v)) max3_idem (fun v => v = 1 ∨ v = 2) (fun v => by constructor <;> intro h <;> omega)
    (fun c x => (max (c.1 - w) 0 ≤ x.1 ∧ x.1 < min (c.1 + w) nx) ∧ max (c.2 - w) 0 ≤ x.2 ∧ x.2 < min (c.2 + w) ny)
    (fun s p => tagBuffer2Cell w nx ny s (p.1, p.2))]
  · simp only [mem_nested]
  · intro d c y
    simp only [tagBuffer2Cell]
    by_cases h : d c = 1 ∨ d c = 2
    · rw [if_pos h, foldl_nested (fun d l k => Function.update d (k, l) (max (d (k, l)) (3 - d (k, l)))), foldl_update_idem (fun v => max v (3 - v)) max3_idem]
      simp only [mem_nested, h, true_and]
    · rw [if_neg h, if_neg (fun h' => h h'.1)]

/-- **C44 in two dimensions, what holds.** For every width, extents and tags (values 0, 1, 2): no access outside of the view (cells outside keep their value); a cell is
tagged afterwards if and only if it was tagged, or a tagged cell is within `w` cells on the upper side and within `w - 1` cells on the lower side, in both
coordinates. -/
theorem tagBuffer2_partial (w nx ny : ℤ) (data : ℤ × ℤ → ℤ) (hval : ∀ c, data c = 0 ∨ data c = 1 ∨ data c = 2) (x : ℤ × ℤ) :
    (¬((0 ≤ x.1 ∧ x.1 < nx) ∧ 0 ≤ x.2 ∧ x.2 < ny) → tagBuffer2 w nx ny data x = data x) ∧
    ((0 ≤ x.1 ∧ x.1 < nx) ∧ 0 ≤ x.2 ∧ x.2 < ny → (tagBuffer2 w nx ny data x ≠ 0 ↔ data x ≠ 0 ∨
      ∃ c : ℤ × ℤ, ((0 ≤ c.1 ∧ c.1 < nx) ∧ 0 ≤ c.2 ∧ c.2 < ny) ∧ data c ≠ 0 ∧ (-w ≤ x.1 - c.1 ∧ x.1 - c.1 ≤ w - 1) ∧ -w ≤ x.2 - c.2 ∧ x.2 - c.2 ≤ w - 1)) := by
  rw [tagBuffer2_value]
  constructor
  · intro h
    rw [if_neg]
    rintro ⟨c, -, -, h3⟩
    exact h ⟨⟨by omega, by omega⟩, by omega, by omega⟩
  · intro hx
    split_ifs with hc
    · obtain ⟨c, h1, h2, h3⟩ := hc
      refine ⟨fun _ => Or.inr ⟨c, h1, by omega, by omega, by omega, by omega⟩, fun _ => by rcases hval x with h | h | h <;> omega⟩
    · refine ⟨Or.inl, ?_⟩
      rintro (h | ⟨c, h1, h2, h3⟩)
      · exact h
      · exact absurd ⟨c, h1, by have := hval c; omega, ⟨by omega, by omega⟩, by omega, by omega⟩ hc

/-- **C44 is false in two dimensions**: around a single tagged cell, the cell `w` places further in the first direction is not tagged, the cell `w` places back
is. -/
theorem tagBuffer2_wrong (w nx ny i j : ℤ) (hw : 1 ≤ w) (hi : w ≤ i ∧ i + w < nx) (hj : 0 ≤ j ∧ j < ny) :
    let data : ℤ × ℤ → ℤ := fun c => if c = (i, j) then 1 else 0
    tagBuffer2 w nx ny data (i + w, j) = 0 ∧ tagBuffer2 w nx ny data (i - w, j) ≠ 0 := by
  intro data
  have hval : ∀ c, data c = 0 ∨ data c = 1 ∨ data c = 2 := by intro c; simp only [data]; split_ifs <;> simp
  have hd : ∀ c, data c ≠ 0 ↔ c = (i, j) := by intro c; simp only [data]; split_ifs with h <;> simp [h]
  constructor
  · by_contra h
    rcases ((tagBuffer2_partial w nx ny data hval (i + w, j)).2 ⟨⟨by simp; omega, by simp; omega⟩, hj⟩).1 h with h | ⟨c, -, h2, h3, -⟩
    · rw [hd] at h; simp at h; omega
    · rw [hd] at h2; subst h2; simp at h3
  · refine ((tagBuffer2_partial w nx ny data hval (i - w, j)).2 ⟨⟨by simp; omega, by simp; omega⟩, hj⟩).2 (Or.inr ⟨(i, j), ⟨⟨by simp; omega, by simp; omega⟩, hj⟩, (hd _).2 rfl, by simp; omega, by simp; omega⟩)

/-- With one cell more in the width, everything within `w` cells is tagged. -/
theorem tagBuffer2_covers (w nx ny : ℤ) (data : ℤ × ℤ → ℤ) (hval : ∀ c, data c = 0 ∨ data c = 1 ∨ data c = 2) (c x : ℤ × ℤ)
    (hc : ((0 ≤ c.1 ∧ c.1 < nx) ∧ 0 ≤ c.2 ∧ c.2 < ny) ∧ data c ≠ 0) (hx : (0 ≤ x.1 ∧ x.1 < nx) ∧ 0 ≤ x.2 ∧ x.2 < ny)
    (hd : |x.1 - c.1| ≤ w ∧ |x.2 - c.2| ≤ w) : tagBuffer2 (w + 1) nx ny data x ≠ 0 := by
  have h1 := abs_le.1 hd.1; have h2 := abs_le.1 hd.2
  exact ((tagBuffer2_partial (w + 1) nx ny data hval x).2 hx).2 (Or.inr ⟨c, hc.1, hc.2, by omega, by omega⟩)

open Classical in
theorem tagBuffer3_value (w : ℤ) (box : IndexBox 3) (tags : Index 3 → ℤ) (x : Index 3) :
    tagBuffer3 w box tags x = if ∃ c : Index 3, (∀ d, box.lower d + w ≤ c d ∧ c d < box.upper d - w) ∧ ∀ d, c d - w ≤ x d ∧ x d < c d + w
      then max (tags x) (2 - tags x) else tags x := by
  rw [tagBuffer3, foldl_buffer (fun v => max v (2 - v)) max2_idem (fun _ => True) (fun v => Iff.rfl) (fun c x => ∀ d, c d - w ≤ x d ∧ x d < c d + w)]
  · congr 1
    apply propext
    refine exists_congr fun c => ?_
    rw [(forEachIndex_spec _).1]
    simp only [IndexBox.toSet, IndexBox.shrink, Set.mem_setOf_eq, true_and]
    refine and_congr_left fun _ => ⟨fun h d => ?_, fun h d => ?_⟩
    · have := h d; fin_cases d <;> simpa [Function.update] using this
    · have := h d; fin_cases d <;> simpa [Function.update] using this
  · intro d c y
    rw [foldl_update_idem (fun v => max v (2 - v)) max2_idem]
    simp only [(forEachIndex_spec _).1, IndexBox.toSet, Set.mem_setOf_eq, true_and]

/-- **C44 is false in three dimensions.** The tags are not looked at: for every width `w ≥ 1` and every box with more than `2w` cells in each direction, every cell of
the box that is not in the last layer of a direction is tagged afterwards, whatever the tags were; the other cells keep their values. -/
theorem tagBuffer3_tags_all (w : ℤ) (hw : 1 ≤ w) (box : IndexBox 3) (hbox : ∀ d, box.lower d + 2 * w < box.upper d) (tags : Index 3 → ℤ) (x : Index 3) :
    ((∀ d, box.lower d ≤ x d ∧ x d < box.upper d - 1) → tagBuffer3 w box tags x ≠ 0) ∧
    (¬(∀ d, box.lower d ≤ x d ∧ x d < box.upper d - 1) → tagBuffer3 w box tags x = tags x) := by
  rw [tagBuffer3_value]
  constructor
  · intro h
    rw [if_pos]
    · omega
    · refine ⟨fun d => max (box.lower d + w) (min (x d) (box.upper d - w - 1)), fun d => ?_, fun d => ?_⟩
      · have := hbox d; have := h d; dsimp only; omega
      · have := hbox d; have := h d; dsimp only; omega
  · intro h
    rw [if_neg]
    rintro ⟨c, h1, h2⟩
    exact h fun d => by have := h1 d; have := h2 d; omega

/-- **C44 in three dimensions, what holds.** Tagged cells stay tagged and no cell outside of the box is accessed. -/
theorem tagBuffer3_partial (w : ℤ) (box : IndexBox 3) (tags : Index 3 → ℤ) (hval : ∀ c, 0 ≤ tags c) (x : Index 3) :
    (tags x ≠ 0 → tagBuffer3 w box tags x ≠ 0) ∧ (x ∉ box.toSet → tagBuffer3 w box tags x = tags x) := by
  rw [tagBuffer3_value]
  have := hval x
  constructor
  · intro h; split_ifs <;> omega
  · intro h
    rw [if_neg]
    rintro ⟨c, h1, h2⟩
    exact h fun d => by have := h1 d; have := h2 d; omega

theorem foldlM_some_append {α β : Type*} (f : β → α → Option β) (a : List α) (x : α) (b : List α) (s t : β) (h : a.foldlM f s = some t) :
    (a ++ x :: b).foldlM f s = (f t x).bind fun t => b.foldlM f t := by
  rw [List.foldlM_append, h]; rfl

theorem loopRange_cons {l u : ℤ} (h : l < u) : loopRange l u = l :: loopRange (l + 1) u := by
  have e : (u - l).toNat = (u - (l + 1)).toNat + 1 := by omega
  simp only [loopRange, e, List.range_succ_eq_map, List.map_cons, List.map_map]
  congr 1
  · simp
  · apply List.map_congr_left; intro k _; simp; ring

theorem loopRange_nil {l u : ℤ} (h : u ≤ l) : loopRange l u = [] := by
  have e : (u - l).toNat = 0 := by omega
  simp [loopRange, e]

/-- Toggling a range of cells inside of the span. -/
theorem toggle_range (size a : ℤ) : ∀ (n : ℕ) (l u : ℤ) (data : ℤ → ℤ), (u - l).toNat = n → 0 ≤ a + l → a + u ≤ size →
    (loopRange l u).foldlM (fun data j => tagToggle size data (a + j)) data = some fun x => if a + l ≤ x ∧ x < a + u then 2 - data x else data x := by
  intro n
  induction n with
  | zero =>
    intro l u data hn h0 h1
    rw [loopRange_nil (by omega)]
    simp only [List.foldlM_nil]
    show some data = _
    congr 1; funext x
    rw [if_neg (by omega)]
  | succ n ih =>
    intro l u data hn h0 h1
    rw [loopRange_cons (by omega)]
    rw [List.foldlM_cons]
    conv_lhs => arg 1; rw [tagToggle, if_pos (by omega : 0 ≤ a + l ∧ a + l < size)]
    show (loopRange (l + 1) u).foldlM _ _ = _
    rw [ih (l + 1) u _ (by omega) (by omega) h1]
    congr 1; funext x
    by_cases hx : x = a + l
    · subst hx
      rw [if_neg (by omega), if_pos (by omega)]; simp
    · rw [Function.update_of_ne hx]
      by_cases h : a + l ≤ x ∧ x < a + u
      · rw [if_pos h, if_pos (by omega)]
      · rw [if_neg h, if_neg (by omega)]

/-- **C44 is false in one dimension.** For every positive width and every span with more than `2w` cells: if the first cell the loop looks at (the cell `w`) is tagged, the
code writes to `data[-1]`. -/
theorem tagBuffer1_out_of_range (w size : ℤ) (hw : 1 ≤ w) (hs : 2 * w < size) (data : ℤ → ℤ) (h : data w = 1) : tagBuffer1 w size data = none := by
  rw [tagBuffer1, loopRange_cons (by omega)]
  simp only [List.foldlM_cons, tagBuffer1Cell]
  rw [if_pos h, toggle_range size w _ 0 w data rfl (by omega) (by omega)]
  have hrev : (loopRange 1 (w + 1)).reverse = w :: (loopRange 1 w).reverse := by
    have : loopRange 1 (w + 1) = loopRange 1 w ++ [w] := by
      have e : (w + 1 - 1).toNat = (w - 1).toNat + 1 := by omega
      simp only [loopRange, e, List.range_succ, List.map_append, List.map_cons, List.map_nil]
      congr 2; omega
    rw [this]; simp
  rw [hrev]
  simp only [Option.bind_some, List.foldlM_cons, tagToggle]
  rw [if_neg (by omega)]
  rfl

/-- **C44 in one dimension.** The left neighbour of a tagged cell stays untagged and a cell at distance `w + 1` is tagged; a neighbouring pair of tagged cells loses
tags. Shown for width 2 and ten cells, of which the cell 4 (or the cells 4 and 5) is tagged; tagged cells in the first and last two
have no effect. -/
theorem tagBuffer1_wrong :
    (tagBuffer1 2 10 (fun i => if i = 4 then 1 else 0)).map (fun d => (loopRange 0 10).map d) = some [0, 2, 2, 0, 1, 2, 0, 0, 0, 0] ∧
    (tagBuffer1 2 10 (fun i => if i = 4 ∨ i = 5 then 1 else 0)).map (fun d => (loopRange 0 10).map d) = some [0, 2, 0, 2, 1, 1, 2, 0, 0, 0] ∧
    (tagBuffer1 2 10 (fun i => if i = 8 ∨ i = 1 then 1 else 0)).map (fun d => (loopRange 0 10).map d) = some [0, 1, 0, 0, 0, 0, 0, 0, 1, 0] := by
  refine ⟨?_, ?_, ?_⟩ <;> decide +kernel

/-- **C44 with width zero**: nothing changes, in every dimension. -/
theorem tagBuffer_zero (size nx ny : ℤ) (d1 : ℤ → ℤ) (d2 : ℤ × ℤ → ℤ) (box : IndexBox 3) (d3 : Index 3 → ℤ) :
    tagBuffer1 0 size d1 = some d1 ∧ tagBuffer2 0 nx ny d2 = d2 ∧ tagBuffer3 0 box d3 = d3 := by
  refine ⟨?_, ?_, ?_⟩
  · have hc : ∀ i, tagBuffer1Cell 0 size d1 i = some d1 := by
      intro i
      simp only [tagBuffer1Cell, loopRange_nil (le_refl (0 : ℤ)), loopRange_nil (show (0 : ℤ) + 1 ≤ 1 by omega), List.foldlM_nil, List.reverse_nil]
      split_ifs <;> rfl
    have : ∀ l : List ℤ, l.foldlM (tagBuffer1Cell 0 size) d1 = some d1 := by
      intro l
      induction l with
      | nil => rfl
      | cons a as ih => rw [List.foldlM_cons, hc]; exact ih
    exact this _
  · funext x
    rw [tagBuffer2_value, if_neg]
    rintro ⟨c, -, -, h, -⟩; omega
  · funext x
    rw [tagBuffer3_value, if_neg]
    rintro ⟨c, -, h⟩
    have := h 0; omega

/-! ## Cut cells, boxes, combinations -/

theorem foldl_set {α : Type*} [DecidableEq α] (p : α → Prop) [DecidablePred p] (v : ℤ) (l : List α) (data : α → ℤ) (x : α) :
    l.foldl (fun d c => if p c then Function.update d c v else d) data x = if x ∈ l ∧ p x then v else data x := by
  induction l generalizing data with
  | nil => simp
  | cons c cs ih =>
    rw [List.foldl_cons, ih]
    by_cases hx : x = c
    · subst hx
      by_cases hp : p x <;> simp [hp]
    · by_cases hp : p c <;> simp [hp, hx]

/-- **C45.** For every rank, boxes, volume fractions and tags: the cells in both boxes with a volume fraction strictly between zero and one get the tag one, and no other cell
changes. -/
theorem tagCutCells_spec {n : ℕ} (tagBox volBox : IndexBox n) (vol : Index n → K) (tags : Index n → ℤ) (x : Index n) :
    (x ∈ tagBox.toSet ∧ x ∈ volBox.toSet ∧ 0 < vol x ∧ vol x < 1 → tagCutCells tagBox volBox vol tags x = 1) ∧
    (¬(x ∈ tagBox.toSet ∧ x ∈ volBox.toSet ∧ 0 < vol x ∧ vol x < 1) → tagCutCells tagBox volBox vol tags x = tags x) := by
  have hv : tagCutCells tagBox volBox vol tags x = if x ∈ forEachIndex (tagBox.intersect volBox) ∧ (0 < vol x ∧ vol x < 1) then 1 else tags x :=
    foldl_set (fun i => 0 < vol i ∧ vol i < 1) 1 _ tags x
  rw [hv]
  have hm : x ∈ forEachIndex (tagBox.intersect volBox) ↔ x ∈ tagBox.toSet ∧ x ∈ volBox.toSet := by
    rw [(forEachIndex_spec _).1]
    simp only [IndexBox.intersect, IndexBox.toSet, Set.mem_setOf_eq]
    refine ⟨fun h => ⟨fun d => ?_, fun d => ?_⟩, fun h d => ?_⟩
    · have := h d; omega
    · have := h d; omega
    · have := h.1 d; have := h.2 d; omega
  exact ⟨fun h => if_pos ⟨hm.2 ⟨h.1, h.2.1⟩, h.2.2⟩, fun h => if_neg fun h' => h ⟨(hm.1 h'.1).1, (hm.1 h'.1).2, h'.2⟩⟩

/-- **C45 (combination).** If every member only adds tags, the combination of the members adds all their tags: tags that were set stay set, and for every member the cells
it tags on the result of the members before it are tagged in the end; the combination of no members changes nothing. -/
theorem tagAllOf_spec {α : Type*} (methods : List ((α → ℤ) → α → ℤ)) (hmono : ∀ f ∈ methods, ∀ t x, t x ≠ 0 → f t x ≠ 0) (tags : α → ℤ) :
    tagAllOf ([] : List ((α → ℤ) → α → ℤ)) tags = tags ∧ (∀ x, tags x ≠ 0 → tagAllOf methods tags x ≠ 0) ∧
    ∀ before f after, methods = before ++ f :: after → ∀ x, f (tagAllOf before tags) x ≠ 0 → tagAllOf methods tags x ≠ 0 := by
  have key : ∀ (l : List ((α → ℤ) → α → ℤ)), (∀ f ∈ l, ∀ t x, t x ≠ 0 → f t x ≠ 0) → ∀ t x, t x ≠ 0 → tagAllOf l t x ≠ 0 := by
    intro l
    induction l with
    | nil => intro _ t x h; exact h
    | cons f fs ih => intro hm t x h; exact ih (fun g hg => hm g (List.mem_cons_of_mem _ hg)) (f t) x (hm f (by simp) t x h)
  refine ⟨rfl, key methods hmono tags, ?_⟩
  rintro before f after rfl x h
  have : tagAllOf (before ++ f :: after) tags = tagAllOf after (f (tagAllOf before tags)) := by
    simp [tagAllOf, List.foldl_append]
  rw [this]
  exact key after (fun g hg => hmono g (by simp [hg])) _ x h

theorem refineToLevel_eq {n : ℕ} (ratio : ℕ → Index n) (level : ℕ) (b : IndexBox n) :
    refineToLevel ratio level b = ⟨fun d => b.lower d * ratio level d ^ level, fun d => b.upper d * ratio level d ^ level⟩ := by
  have key : ∀ k, (List.range k).foldl (fun b _ => refineBox (ratio level) b) b = ⟨fun d => b.lower d * ratio level d ^ k, fun d => b.upper d * ratio level d ^ k⟩ := by
    intro k
    induction k with
    | zero => simp
    | succ k ih => rw [List.range_succ, List.foldl_append, ih]; simp [refineBox, pow_succ, mul_assoc]
  exact key level

/-- **C60, what holds.** If all refinement ratios up to the level are the same (and positive), a tile's cell is tagged exactly if the cell of the coarsest level that contains it is in
the configured box; the other tags do not change. -/
theorem constantBox_partial {n : ℕ} (ratio : ℕ → Index n) (level : ℕ) (coarse tile : IndexBox n) (tags : Index n → ℤ) (hpos : ∀ d, 0 < ratio level d)
    (hsame : ∀ l, 1 ≤ l → l ≤ level → ratio l = ratio level) (x : Index n) :
    (x ∈ tile.toSet ∧ ancestor ratio level x ∈ coarse.toSet → constantBoxTag ratio level coarse tile tags x = 1) ∧
    (¬(x ∈ tile.toSet ∧ ancestor ratio level x ∈ coarse.toSet) → constantBoxTag ratio level coarse tile tags x = tags x) := by
  have hv : constantBoxTag ratio level coarse tile tags x = if x ∈ forEachIndex ((refineToLevel ratio level coarse).intersect tile) ∧ True then 1 else tags x := by
    rw [← foldl_set (fun _ => True)]; simp [constantBoxTag]
  have hprod : ∀ d, ∏ l ∈ Finset.Icc 1 level, ratio l d = ratio level d ^ level := by
    intro d
    rw [Finset.prod_congr rfl (fun l hl => by rw [hsame l (Finset.mem_Icc.1 hl).1 (Finset.mem_Icc.1 hl).2]), Finset.prod_const, Nat.card_Icc]
    simp
  have hm : x ∈ forEachIndex ((refineToLevel ratio level coarse).intersect tile) ∧ True ↔ x ∈ tile.toSet ∧ ancestor ratio level x ∈ coarse.toSet := by
    rw [and_true, (forEachIndex_spec _).1, refineToLevel_eq]
    simp only [IndexBox.intersect, IndexBox.toSet, Set.mem_setOf_eq, ancestor, hprod]
    have hp : ∀ d, 0 < ratio level d ^ level := fun d => pow_pos (hpos d) _
    have hdiv : ∀ d a, a ≤ x d / ratio level d ^ level ↔ a * ratio level d ^ level ≤ x d := fun d a => Int.le_ediv_iff_mul_le (hp d)
    have hdiv' : ∀ d a, x d / ratio level d ^ level < a ↔ x d < a * ratio level d ^ level := fun d a => Int.ediv_lt_iff_lt_mul (hp d)
    simp only [hdiv, hdiv']
    refine ⟨fun h => ⟨fun d => ?_, fun d => ?_⟩, fun h d => ?_⟩
    · have := h d; omega
    · have := h d; omega
    · have := h.1 d; have := h.2 d; omega
  rw [hv]
  exact ⟨fun h => if_pos (hm.2 h), fun h => if_neg fun h' => h (hm.1 h')⟩

/-- **C60 is false.** With the ratio 4 to the first and the ratio 2 to the second level, on the second level the cell 7 is in the configured coarse cell 0 and not tagged; with
the ratios exchanged the cell 8 is not in it and tagged. -/
theorem constantBox_wrong :
    let coarse : IndexBox 1 := ⟨fun _ => 0, fun _ => 1⟩
    let tile : IndexBox 1 := ⟨fun _ => 0, fun _ => 64⟩
    let r42 : ℕ → Index 1 := fun l _ => if l = 1 then 4 else 2
    let r24 : ℕ → Index 1 := fun l _ => if l = 1 then 2 else 4
    (ancestor r42 2 (fun _ => 7) ∈ coarse.toSet ∧ constantBoxTag r42 2 coarse tile (fun _ => 0) (fun _ => 7) = 0) ∧
    (ancestor r24 2 (fun _ => 8) ∉ coarse.toSet ∧ constantBoxTag r24 2 coarse tile (fun _ => 0) (fun _ => 8) = 1) := by
  refine ⟨⟨?_, by decide +kernel⟩, ?_, by decide +kernel⟩
  · intro d
    have : ∏ l ∈ Finset.Icc 1 2, (if l = 1 then (4 : ℤ) else 2) = 8 := by decide
    simp only [ancestor, this]; decide
  · intro h
    have := h 0
    have h8 : ∏ l ∈ Finset.Icc 1 2, (if l = 1 then (2 : ℤ) else 4) = 8 := by decide
    simp only [ancestor, h8] at this
    revert this; decide

/-! ## Gradient detector -/

theorem relJumpGt_iff (tol : K) (htol : 0 ≤ tol) (a b : K) : relJumpGt tol a b = true ↔ RelDiffers tol a b := by
  simp only [relJumpGt, RelDiffers, decide_eq_true_eq]
  have h0 : 0 ≤ |a| + |b| := add_nonneg (abs_nonneg _) (abs_nonneg _)
  constructor
  · rintro ⟨h1, h2⟩
    exact (lt_div_iff₀ (lt_of_le_of_ne h0 (Ne.symm h1))).1 h2
  · intro h
    have hne : |a| + |b| ≠ 0 := by
      intro h1
      have ha : a = 0 := abs_eq_zero.1 (le_antisymm (by have := abs_nonneg b; linarith) (abs_nonneg a))
      have hb : b = 0 := abs_eq_zero.1 (le_antisymm (by have := abs_nonneg a; linarith) (abs_nonneg b))
      simp [ha, hb] at h
    exact ⟨hne, (lt_div_iff₀ (lt_of_le_of_ne h0 (Ne.symm hne))).2 h⟩

theorem relDiffers_self (tol : K) (htol : 0 ≤ tol) (a : K) : ¬RelDiffers tol a a := by
  simp only [RelDiffers, sub_self, abs_zero, not_lt]
  exact mul_nonneg htol (add_nonneg (abs_nonneg _) (abs_nonneg _))

theorem gradCell_ne_zero {S : Type*} (conds : List (GradCond S K)) (htol : ∀ c ∈ conds, 0 ≤ c.tol) (sL sM sR : S) (tag : ℕ) :
    gradCell conds sL sM sR tag ≠ 0 ↔ tag ≠ 0 ∨ ∃ c ∈ conds, RelDiffers c.tol (c.proj sM) (c.proj sL) ∨ RelDiffers c.tol (c.proj sM) (c.proj sR) := by
  induction conds generalizing tag with
  | nil => simp [gradCell]
  | cons c cs ih =>
    have hc := htol c (by simp)
    rw [gradCell, List.foldl_cons]
    rw [← gradCell, ih (fun c h => htol c (List.mem_cons_of_mem _ h))]
    have hstep : (if c.proj sM ≠ c.proj sR ∨ c.proj sM ≠ c.proj sL then
        tag ||| (if relJumpGt c.tol (c.proj sM) (c.proj sL) || relJumpGt c.tol (c.proj sM) (c.proj sR) then 1 else 0) else tag) ≠ 0 ↔
        tag ≠ 0 ∨ (RelDiffers c.tol (c.proj sM) (c.proj sL) ∨ RelDiffers c.tol (c.proj sM) (c.proj sR)) := by
      have e : (relJumpGt c.tol (c.proj sM) (c.proj sL) || relJumpGt c.tol (c.proj sM) (c.proj sR)) = true ↔
          RelDiffers c.tol (c.proj sM) (c.proj sL) ∨ RelDiffers c.tol (c.proj sM) (c.proj sR) := by
        rw [Bool.or_eq_true, relJumpGt_iff _ hc, relJumpGt_iff _ hc]
      by_cases h : c.proj sM ≠ c.proj sR ∨ c.proj sM ≠ c.proj sL
      · rw [if_pos h]
        by_cases h2 : RelDiffers c.tol (c.proj sM) (c.proj sL) ∨ RelDiffers c.tol (c.proj sM) (c.proj sR)
        · rw [if_pos (e.2 h2)]
          simp [h2, Nat.or_eq_zero_iff]
        · rw [if_neg (fun h' => h2 (e.1 h'))]
          simp [h2]
      · rw [if_neg h]
        push Not at h
        have h3 : ¬(RelDiffers c.tol (c.proj sM) (c.proj sL) ∨ RelDiffers c.tol (c.proj sM) (c.proj sR)) := by
          rw [← h.1, ← h.2]; simpa using relDiffers_self _ hc _
        simp [h3]
    rw [hstep]
    simp only [List.mem_cons, exists_eq_or_imp, or_assoc]

/-- Folding updates that depend on the value of the cell itself. -/
theorem foldl_or {α β : Type*} [DecidableEq β] (e : α → β) (he : Function.Injective e) (p : α → Prop) [DecidablePred p] (f : α → ℕ → ℕ) (q : α → Prop)
    (hf : ∀ a t, f a t ≠ 0 ↔ t ≠ 0 ∨ q a) (l : List α) (tags : β → ℕ) (y : β) :
    l.foldl (fun t a => if p a then setAt t (e a) (f a (t (e a))) else t) tags y ≠ 0 ↔ tags y ≠ 0 ∨ ∃ a ∈ l, e a = y ∧ p a ∧ q a := by
  induction l generalizing tags with
  | nil => simp
  | cons a as ih =>
    rw [List.foldl_cons, ih]
    have h1 : (if p a then setAt tags (e a) (f a (tags (e a))) else tags) y ≠ 0 ↔ tags y ≠ 0 ∨ (e a = y ∧ p a ∧ q a) := by
      by_cases hp : p a
      · rw [if_pos hp]
        by_cases hy : y = e a
        · subst hy; simp [hf, hp, setAt]
        · rw [setAt, if_neg hy]; simp [Ne.symm hy]
      · simp [hp]
    rw [h1]
    simp only [List.mem_cons, exists_eq_or_imp, or_assoc]

theorem embedInSpace_injective {n m : ℕ} (h : n ≤ m) : Function.Injective (embedInSpace (n := n) m) := by
  intro i j hij
  funext d
  have := congrFun hij ⟨d.1, by omega⟩
  simpa [embedInSpace] using this

theorem embedInSpace_eq {n m : ℕ} (x : Index n) (y : Index m) :
    embedInSpace m x = y ↔ ∀ e : Fin m, y e = if h : e.1 < n then x ⟨e.1, h⟩ else 0 :=
  ⟨fun h e => h ▸ rfl, fun h => funext fun e => (h e).symm⟩

/-- **C59 (without vectorisation).** For every rank, boxes, states, list of conditions with non-negative tolerances and tags: a cell is tagged afterwards exactly if it was tagged before, or
it is in the tag box (its indices beyond the rank are zero) and for some direction the states of its two neighbours in this direction are available (and their volume fractions and its own
are positive, if volume fractions are given), and for some condition its value differs from the value of one of these neighbours by more than the tolerance. -/
theorem gradTag_spec {S : Type*} {n m : ℕ} (hnm : n ≤ m) (conds : List (GradCond S K)) (htol : ∀ c ∈ conds, 0 ≤ c.tol) (tagBox : IndexBox m) (stateBox : IndexBox n)
    (states : Index n → S) (vol : Option (Index n → K)) (tags : Index m → ℕ) (y : Index m) :
    gradTag conds tagBox stateBox states vol tags y ≠ 0 ↔ tags y ≠ 0 ∨
      (y ∈ tagBox.toSet ∧ ∃ x : Index n, (∀ e : Fin m, y e = if h : e.1 < n then x ⟨e.1, h⟩ else 0) ∧ ∃ d : Fin n, x ∈ stateBox.toSet ∧
        Function.update x d (x d - 1) ∈ stateBox.toSet ∧ Function.update x d (x d + 1) ∈ stateBox.toSet ∧
        (∀ v ∈ vol, 0 < v (Function.update x d (x d - 1)) ∧ 0 < v x ∧ 0 < v (Function.update x d (x d + 1))) ∧
        ∃ c ∈ conds, RelDiffers c.tol (c.proj (states x)) (c.proj (states (Function.update x d (x d - 1)))) ∨
          RelDiffers c.tol (c.proj (states x)) (c.proj (states (Function.update x d (x d + 1))))) := by
  simp only [← embedInSpace_eq]
  classical
  have hbody : ∀ (d : Fin n) (tags : Index m → ℕ), (forEachIndex (stateBox.shrink d 1 1)).foldl (fun tags mid =>
      if tagBox.contains (embedInSpace m mid) then
        let left := shift mid d (-1)
        let right := shift mid d 1
        if vol.all (fun v => decide (0 < v left) && decide (0 < v mid) && decide (0 < v right)) then
          setAt tags (embedInSpace m mid) (gradCell conds (states left) (states mid) (states right) (tags (embedInSpace m mid)))
        else tags
      else tags) tags y ≠ 0 ↔ tags y ≠ 0 ∨ ∃ x ∈ forEachIndex (stateBox.shrink d 1 1), embedInSpace m x = y ∧
        (tagBox.contains (embedInSpace m x) = true ∧ vol.all (fun v => decide (0 < v (shift x d (-1))) && decide (0 < v x) && decide (0 < v (shift x d 1))) = true) ∧
        ∃ c ∈ conds, RelDiffers c.tol (c.proj (states x)) (c.proj (states (shift x d (-1)))) ∨ RelDiffers c.tol (c.proj (states x)) (c.proj (states (shift x d 1))) := by
    intro d tags
    rw [← foldl_or (embedInSpace m) (embedInSpace_injective hnm) _ (fun x t => gradCell conds (states (shift x d (-1))) (states x) (states (shift x d 1)) t) _
      (fun x t => gradCell_ne_zero conds htol _ _ _ t)]
    simp only [ite_and]
  have hdirs : ∀ (l : List (Fin n)) (tags : Index m → ℕ), l.foldl (fun tags d =>
    (forEachIndex (stateBox.shrink d 1 1)).foldl (fun tags mid =>
      if tagBox.contains (embedInSpace m mid) then
        let left := shift mid d (-1)
        let right := shift mid d 1
        if vol.all (fun v => decide (0 < v left) && decide (0 < v mid) && decide (0 < v right)) then
          setAt tags (embedInSpace m mid) (gradCell conds (states left) (states mid) (states right) (tags (embedInSpace m mid)))
        else tags
      else tags) tags) tags y ≠ 0 ↔ tags y ≠ 0 ∨ ∃ d ∈ l, ∃ x ∈ forEachIndex (stateBox.shrink d 1 1), embedInSpace m x = y ∧
        (tagBox.contains (embedInSpace m x) = true ∧ vol.all (fun v => decide (0 < v (shift x d (-1))) && decide (0 < v x) && decide (0 < v (shift x d 1))) = true) ∧
        ∃ c ∈ conds, RelDiffers c.tol (c.proj (states x)) (c.proj (states (shift x d (-1)))) ∨ RelDiffers c.tol (c.proj (states x)) (c.proj (states (shift x d 1))) := by
    intro l
    induction l with
    | nil => simp
    | cons d ds ih =>
      intro tags
      rw [List.foldl_cons, ih, hbody]
      simp only [List.mem_cons, exists_eq_or_imp, or_assoc]
  rw [gradTag, hdirs]
  have hbox : ∀ (d : Fin n) (x : Index n), x ∈ forEachIndex (stateBox.shrink d 1 1) ↔
      x ∈ stateBox.toSet ∧ Function.update x d (x d - 1) ∈ stateBox.toSet ∧ Function.update x d (x d + 1) ∈ stateBox.toSet := by
    intro d x
    rw [(forEachIndex_spec _).1]
    simp only [IndexBox.toSet, IndexBox.shrink, Set.mem_setOf_eq, Function.update_apply]
    refine ⟨fun h => ⟨fun e => ?_, fun e => ?_, fun e => ?_⟩, fun h e => ?_⟩
    · have := h e; split_ifs at this with he <;> (try subst he) <;> omega
    · have := h e; split_ifs at this ⊢ with he <;> (try subst he) <;> omega
    · have := h e; split_ifs at this ⊢ with he <;> (try subst he) <;> omega
    · have h1 := h.1 e; have h2 := h.2.1 e; have h3 := h.2.2 e
      split_ifs at h2 h3 ⊢ with he <;> (try subst he) <;> omega
  have hvol : ∀ (d : Fin n) (x : Index n), vol.all (fun v => decide (0 < v (shift x d (-1))) && decide (0 < v x) && decide (0 < v (shift x d 1))) = true ↔
      ∀ v ∈ vol, 0 < v (Function.update x d (x d - 1)) ∧ 0 < v x ∧ 0 < v (Function.update x d (x d + 1)) := by
    intro d x
    cases vol with
    | none => simp
    | some v =>
      have e : x d + -1 = x d - 1 := by omega
      simp only [Option.all_some, Bool.and_eq_true, decide_eq_true_eq, shift, e, Option.mem_def, Option.some.injEq, forall_eq', and_assoc]
      exact and_congr_right fun _ => and_congr_right fun _ => decide_eq_true_iff
  refine or_congr_right ?_
  constructor
  · rintro ⟨d, -, x, hx, rfl, ⟨h1, h2⟩, h3⟩
    obtain ⟨a, b, c⟩ := (hbox d x).1 hx
    exact ⟨(contains_iff _ _).1 h1, x, rfl, d, a, b, c, (hvol d x).1 h2, by simpa [shift, sub_eq_add_neg] using h3⟩
  · rintro ⟨h1, x, rfl, d, a, b, c, h2, h3⟩
    exact ⟨d, List.mem_finRange d, x, (hbox d x).2 ⟨a, b, c⟩, rfl, ⟨(contains_iff _ _).2 h1, (hvol d x).2 h2⟩, by simpa [shift, sub_eq_add_neg] using h3⟩

theorem gradLane_spec {S : Type*} (conds : List (GradCond S K)) (sL sM sR : S) (tag : ℕ) :
    gradLane conds sL sM sR tag ≠ 0 ↔ tag ≠ 0 ∨ ∃ c ∈ conds, ∃ s, (s = sL ∨ s = sR) ∧
      (c.proj sM = 0 ∧ c.proj s = 0 ∨ c.tol * (|c.proj sM| + |c.proj s|) ≤ |c.proj sM - c.proj s|) := by
  have hsel : ∀ (tol a b : K) (t : ℕ), selectTag tol a b t ≠ 0 ↔ t ≠ 0 ∨ (a = 0 ∧ b = 0 ∨ tol * (|a| + |b|) ≤ |a - b|) := by
    intro tol a b t
    have h0 : 0 ≤ |a| + |b| := add_nonneg (abs_nonneg _) (abs_nonneg _)
    by_cases hz : |a| + |b| = 0
    · have ha : a = 0 := abs_eq_zero.1 (le_antisymm (by have := abs_nonneg b; linarith) (abs_nonneg a))
      have hb : b = 0 := abs_eq_zero.1 (le_antisymm (by have := abs_nonneg a; linarith) (abs_nonneg b))
      rw [selectTag, if_neg (by simp [hz])]
      simp [ha, hb]
    · have hpos := lt_of_le_of_ne h0 (Ne.symm hz)
      have hnz : ¬(a = 0 ∧ b = 0) := by rintro ⟨rfl, rfl⟩; simp at hz
      rw [selectTag]
      by_cases h : |a - b| < tol * (|a| + |b|)
      · rw [if_pos ⟨hz, (div_lt_iff₀ hpos).2 h⟩]; simp [hnz, not_le.2 h]
      · rw [if_neg (fun h' => h ((div_lt_iff₀ hpos).1 h'.2))]; simp [not_lt.1 h]
  induction conds generalizing tag with
  | nil => simp [gradLane]
  | cons c cs ih =>
    rw [gradLane, List.foldl_cons, ← gradLane]
    refine (ih _).trans ?_
    rw [hsel, hsel]
    simp only [List.mem_cons, exists_eq_or_imp, or_assoc, or_and_right, exists_or, exists_eq_left]

/-- **C59 (vectorised), what holds.** For rows with at most `W` cells the vectorised detector tags the cells whose value differs from the left or the right neighbour in the first
direction by at least the tolerance, and in addition every cell whose value and the value of a neighbour are both zero. -/
theorem gradRow_partial {S : Type*} (W : ℕ) (hW : 0 < W) (conds : List (GradCond S K)) (n : ℕ) (hn : n ≤ W) (x : ℕ → S) (tags : ℕ → ℕ) (k : ℕ) (hk : k < n) :
    (gradRow W conds n x tags k ≠ 0 ↔ tags k ≠ 0 ∨ ∃ c ∈ conds, ∃ s, (s = x k ∨ s = x (k + 2)) ∧
      (c.proj (x (k + 1)) = 0 ∧ c.proj s = 0 ∨ c.tol * (|c.proj (x (k + 1))| + |c.proj s|) ≤ |c.proj (x (k + 1)) - c.proj s|)) := by
  have hval : gradRow W conds n x tags k = gradLane conds (x k) (x (k + 1)) (x (k + 2)) (tags k) := by
    unfold gradRow
    by_cases h : n = W
    · subst h
      have h1 : gradRowLoop n conds (fun k => x (k + 2)) n 0 x (fun k => x (k + 1)) tags =
          (n, fun k => if 0 ≤ k ∧ k < 0 + n then gradLane conds (x (k - 0)) (x (k - 0 + 1)) (x (0 + (k - 0) + 2)) (tags k) else tags k) := by
        rw [gradRowLoop, dif_pos ⟨hW, by omega⟩, gradRowLoop, dif_neg (by omega)]
        simp
      simp only [h1]
      rw [if_neg (by omega), if_pos (by omega)]
      simp
    · have h1 : gradRowLoop W conds (fun k => x (k + 2)) n 0 x (fun k => x (k + 1)) tags = (0, tags) := by
        rw [gradRowLoop, dif_neg (by omega)]
      simp only [h1]
      rw [if_pos (by omega)]
      simp
  rw [hval, gradLane_spec]

/-- **C59 is false for the vectorised detector.** For every vector width of at least two: in rows with `W + 1` cells the last cell is compared with the wrong cells. If only the leftmost value of the row
differs, the last cell is tagged although it and its neighbours have the same value; if only the last cell differs, it is not tagged. -/
theorem gradRow_wrong (W : ℕ) (hW : 2 ≤ W) :
    let conds : List (GradCond ℚ ℚ) := [⟨id, 1 / 10⟩]
    let first : ℕ → ℚ := fun k => if k = 0 then 2 else 1
    let last : ℕ → ℚ := fun k => if k = W + 1 then 2 else 1
    (first W = 1 ∧ first (W + 1) = 1 ∧ first (W + 2) = 1 ∧ gradRow W conds (W + 1) first (fun _ => 0) W ≠ 0) ∧
    (last W = 1 ∧ last (W + 1) = 2 ∧ last (W + 2) = 1 ∧ gradRow W conds (W + 1) last (fun _ => 0) W = 0) := by
  intro conds first last
  have hval : ∀ x : ℕ → ℚ, gradRow W conds (W + 1) x (fun _ => 0) W = gradLane conds (x 0) (x 1) (x (W + 2)) 0 := by
    intro x
    have h1 : gradRowLoop W conds (fun k => x (k + 2)) (W + 1) 0 x (fun k => x (k + 1)) (fun _ => 0) =
        (W, fun k => if 0 ≤ k ∧ k < 0 + W then gradLane conds (x (k - 0)) (x (k - 0 + 1)) (x (0 + (k - 0) + 2)) 0 else 0) := by
      rw [gradRowLoop, dif_pos ⟨by omega, by omega⟩, gradRowLoop, dif_neg (by omega : ¬(0 < W ∧ 0 + W + W ≤ W + 1))]
      simp
    unfold gradRow
    simp only [h1]
    rw [if_pos (by omega), if_neg (by omega)]
    simp
  refine ⟨⟨by simp only [first]; rw [if_neg (by omega)], by simp [first], by simp [first], ?_⟩, by simp [last], by simp [last], by simp [last], ?_⟩
  · rw [hval]
    simp only [first]
    rw [if_pos trivial, if_neg (by omega), if_neg (by omega)]
    decide +kernel
  · rw [hval]
    simp only [last]
    rw [if_neg (by omega), if_neg (by omega), if_neg (by omega)]
    decide +kernel

/-! ## Concrete cases -/

/-- Tags in a 6 x 5 view with two tagged cells meet the hypotheses of the two-dimensional theorems. -/
example : let data : ℤ × ℤ → ℤ := fun c => if c = (2, 2) then 1 else if c = (4, 1) then 2 else 0
    (∀ c, data c = 0 ∨ data c = 1 ∨ data c = 2) ∧ tagBuffer2 1 6 5 data (1, 1) = 3 ∧ tagBuffer2 1 6 5 data (3, 3) = 0 := by
  refine ⟨fun c => ?_, by decide +kernel, by decide +kernel⟩
  dsimp only; split_ifs <;> simp

/-- Two conditions on pairs of numbers, one dimension, a jump of the first component. -/
example : let conds : List (GradCond (ℚ × ℚ) ℚ) := [⟨Prod.fst, 1 / 10⟩, ⟨Prod.snd, 1 / 2⟩]
    (∀ c ∈ conds, 0 ≤ c.tol) ∧
    (forEachIndex (⟨fun _ => 0, fun _ => 6⟩ : IndexBox 1)).map (gradTag conds ⟨fun _ => 0, fun _ => 6⟩ ⟨fun _ => 0, fun _ => 6⟩
      (fun i : Index 1 => (if i 0 < 3 then 1 else 2, 0)) none (fun _ => 0)) = [0, 0, 1, 1, 0, 0] := by
  refine ⟨by simp, by decide +kernel⟩

/-- Equal ratios. -/
example : let ratio : ℕ → Index 2 := fun _ => ![2, 2]
    (∀ d, 0 < ratio 3 d) ∧ (∀ l, 1 ≤ l → l ≤ 3 → ratio l = ratio 3) ∧ ancestor ratio 3 ![17, -1] = ![2, -1] := by
  refine ⟨by decide, fun _ _ _ => rfl, ?_⟩
  funext d; fin_cases d <;> simp [ancestor, Finset.prod_const]

end Fub
