import Verif.Model.Layout
import Verif.Spec.Layout
import Verif.Props.Layout

/-! C22 (spans), C23 (ForEachRow). -/

namespace Fub

/-! ### C22 -/

theorem elems_eq {s : Span} (n : Nat) (o : Nat) (h : o + n ≤ s.size) (st : Option Nat) :
    (⟨st, s.data + o, n⟩ : Span).elems = (s.elems.drop o).take n := by
  refine List.ext_getElem ?_ fun k h1 h2 => ?_
  · simp [Span.elems]; omega
  · simp [Span.elems]; omega

/-- **C22 (first, subspan).** For every span, static or dynamic, and all valid arguments, `first(n)`, `first<n>()`, `last<n>()`, `subspan(o, n)` and
`subspan(o)` consist of the first `n`, the last `n`, `n` elements from `o`, and all elements from `o`. -/
theorem span_sub (s : Span) :
    (∀ n ≤ s.size, (s.first n).elems = s.elems.take n ∧ (s.firstS n).elems = s.elems.take n ∧
      (s.lastS n).elems = s.elems.drop (s.size - n)) ∧
    (∀ o n, o + n ≤ s.size → (s.subspan o (some n)).elems = (s.elems.drop o).take n) ∧
    (∀ o ≤ s.size, (s.subspan o none).elems = s.elems.drop o) := by
  have hlen : s.elems.length = s.size := by simp [Span.elems]
  refine ⟨fun n hn => ⟨?_, ?_, ?_⟩, fun o n h => elems_eq n o h none, fun o ho => ?_⟩
  · simpa [Span.first] using elems_eq (s := s) n 0 (by omega) none
  · simpa [Span.firstS] using elems_eq (s := s) n 0 (by omega) (some n)
  · have := elems_eq (s := s) n (s.size - n) (by omega) (some n)
    rw [List.take_of_length_le (by simp [hlen]; omega)] at this
    rw [← this, Span.lastS, Nat.cast_sub hn]
  · have := elems_eq (s := s) (s.size - o) o (by omega) none
    rwa [List.take_of_length_le (by simp [hlen])] at this

/-- **C22 (last, static).** For a span with static extent `last(n)` consists of the last `n` elements. -/
theorem span_last_partial (s : Span) (N : Nat) (hs : s.static = some N) (hN : s.size = N) (n : Nat) (hn : n ≤ s.size) :
    (s.last n).elems = s.elems.drop (s.size - n) := by
  have : s.last n = ⟨none, s.data + ((s.size : Int) - n), n⟩ := by simp [Span.last, Span.extent, hs, hN]
  rw [this, ← ((span_sub s).1 n hn).2.2]
  rfl

/-- **C22 is false for `last(n)` of a dynamic span.** It never refers to an element of the span: all its elements, for every
`n`, lie before the span's first element. -/
theorem span_last_dynamic (s : Span) (hs : s.static = none) (n : Nat) : ∀ a ∈ (s.last n).elems, a < s.data := by
  intro a ha
  simp only [Span.elems, Span.last, Span.extent, hs, List.mem_map, List.mem_range] at ha
  obtain ⟨k, hk, rfl⟩ := ha
  omega

example : (⟨none, 100, 5⟩ : Span).elems = [100, 101, 102, 103, 104] ∧ ((⟨none, 100, 5⟩ : Span).last 2).elems = [97, 98] ∧
    ((⟨some 5, 100, 5⟩ : Span).last 2).elems = [103, 104] ∧ ((⟨none, 100, 5⟩ : Span).lastS 2).elems = [103, 104] := by decide

/-! ### C23 -/

/-- The start addresses of the rows of the views in the row at height `j`. -/
theorem advancePtrs_map {α : Type} (vs : List α) (f : α → Int) (g : α → Nat) :
    advancePtrs (vs.map f) (vs.map g) = vs.map fun v => f v + g v := by
  induction vs with
  | nil => rfl
  | cons v vs ih =>
    simp only [List.map_cons, advancePtrs, List.zipWith_cons_cons] at ih ⊢
    rw [ih]

theorem rowLoopN_eq {α : Type} (len : Nat) (vs : List α) (f : α → Int) (g : α → Nat) (k : Nat) :
    rowLoopN len (vs.map g) k (vs.map f) = (List.range k).map fun j : Nat => vs.map fun v => ⟨f v + j * g v, len⟩ := by
  induction k generalizing f with
  | zero => rfl
  | succ k ih =>
    rw [rowLoopN, advancePtrs_map, ih, List.range_succ_eq_map, List.map_cons, List.map_map]
    refine congrArg₂ _ (by simp [toRows]) (List.map_congr_left fun j _ => List.map_congr_left fun v _ => ?_)
    simp only [Function.comp, RowRef.mk.injEq, and_true]
    push_cast; ring

theorem planeLoop_eq {α : Type} (len ny : Nat) (vs : List α) (f : α → Int) (gy gz : α → Nat) (k : Nat) :
    planeLoop len ny (vs.map gy) (vs.map gz) k (vs.map f) =
      (List.range k).flatMap fun l : Nat => (List.range ny).map fun j : Nat => vs.map fun v => ⟨f v + j * gy v + l * gz v, len⟩ := by
  induction k generalizing f with
  | zero => rfl
  | succ k ih =>
    rw [planeLoop, advancePtrs_map, ih, rowLoopN_eq, List.range_succ_eq_map, List.flatMap_cons, List.flatMap_map]
    refine congrArg₂ _ (List.map_congr_left fun j _ => List.map_congr_left fun v _ => ?_) ?_
    · simp
    · congr 1
      funext l
      refine List.map_congr_left fun j _ => List.map_congr_left fun v _ => ?_
      simp only [RowRef.mk.injEq, and_true]
      push_cast; ring

theorem rowLoop2_eq {α : Type} (len : Nat) (last : Int) (v : α) (vs : List α) (f : α → Int) (g : α → Nat) (k fuel : Nat)
    (hk : (k : Int) * g v ≤ last - f v) (hk' : last - f v < (k + 1 : Int) * g v) (hf : k < fuel) :
    rowLoop2 len last ((v :: vs).map g) fuel ((v :: vs).map f) =
      some ((List.range k).map fun j : Nat => (v :: vs).map fun v => ⟨f v + j * g v, len⟩) := by
  induction k generalizing f fuel with
  | zero =>
    obtain ⟨fuel, rfl⟩ : ∃ m, fuel = m + 1 := ⟨fuel - 1, by omega⟩
    simp only [List.map_cons, rowLoop2]
    rw [if_neg (by simp at hk'; omega)]
    rfl
  | succ k ih =>
    obtain ⟨fuel, rfl⟩ : ∃ m, fuel = m + 1 := ⟨fuel - 1, by omega⟩
    push_cast at hk hk'
    have hs : (0 : Int) ≤ (k : Int) * g v := mul_nonneg (by omega) (by omega)
    have e1 : ((k : Int) + 1) * g v = k * g v + g v := by ring
    have e2 : ((k : Int) + 1 + 1) * g v = k * g v + g v + g v := by ring
    rw [e1] at hk
    rw [e2] at hk'
    simp only [List.map_cons, rowLoop2]
    rw [if_pos (by omega)]
    have := ih (fun v => f v + g v) fuel (by omega) (by rw [e1]; omega) (by omega)
    rw [← List.map_cons, ← List.map_cons, advancePtrs_map, this, Option.map_some, List.range_succ_eq_map]
    simp only [List.map_cons, List.map_map, Option.some.injEq]
    refine congrArg₂ List.cons (by simp [toRows]) (List.map_congr_left fun j _ => ?_)
    refine congrArg₂ List.cons ?_ (List.map_congr_left fun w _ => ?_) <;>
      (simp only [RowRef.mk.injEq, and_true]; push_cast; ring)

/-- **C23 (ranks 1 and 3).** For views of rank 1 or 3 with any extents and strides, the function is called with exactly the rows of the views, in
order. -/
theorem forEachRow_spec (fuel : Nat) (v : MdSpan) (vs : List MdSpan) (h : v.ext.length = 1 ∨ v.ext.length = 3)
    (hr : ∀ w ∈ v :: vs, w.str.length = v.ext.length) : forEachRow fuel (v :: vs) = some (rowsOf v (v :: vs)) := by
  rcases h with h | h
  · simp only [forEachRow, rowsOf, h, toRows, List.map_map]
    congr 2
    refine List.map_congr_left fun w hw => ?_
    have hl := hr w hw
    rw [h, List.length_eq_one_iff] at hl
    obtain ⟨a, ha⟩ := hl
    simp [MdSpan.addr, ha]
  · simp only [forEachRow, rowsOf, h]
    rw [planeLoop_eq]
    congr 2
    funext l
    refine List.map_congr_left fun j _ => List.map_congr_left fun w hw => ?_
    have hl := hr w hw
    rw [h, List.length_eq_three] at hl
    obtain ⟨a, b, c, ha⟩ := hl
    simp [MdSpan.addr, ha]
    ring

/-- **C23 (rank 2, partial).** For strided views of rank 2 whose rows do not overlap (the first view is not degenerate: its row stride is
positive and it has either a row, or rows that are longer than its extent), the function is called with exactly the rows of the views, in order.
Views without rows can fail, see `forEachRow_empty`. -/
theorem forEachRow_two_partial (fuel : Nat) (v : MdSpan) (vs : List MdSpan) (nx ny sx sy : Nat) (hlay : v.layout = .stride)
    (he : v.ext = [nx, ny]) (hs : v.str = [sx, sy]) (hr : ∀ w ∈ vs, w.str.length = 2)
    (hsy : 0 < sy) (hrow : nx * sx ≤ sy) (hny : 0 < ny ∨ nx * sx < sy) (hf : ny < fuel) :
    forEachRow fuel (v :: vs) = some (rowsOf v (v :: vs)) := by
  have hsize : v.spanSize = max (nx * sx) (ny * sy) := by
    simp [MdSpan.spanSize, hlay, requiredStride, he, hs]
  have hge : ny * sy ≤ v.spanSize := by rw [hsize]; exact le_max_right _ _
  have hlt : v.spanSize < (ny + 1) * sy := by
    rw [hsize]
    refine max_lt ?_ (by rw [Nat.add_mul]; omega)
    rcases hny with h | h
    · calc nx * sx ≤ sy := hrow
        _ < (1 + 1) * sy := by omega
        _ ≤ (ny + 1) * sy := Nat.mul_le_mul_right _ (by omega)
    · calc nx * sx < sy := h
        _ = 1 * sy := (one_mul _).symm
        _ ≤ (ny + 1) * sy := Nat.mul_le_mul_right _ (by omega)
  have h2 : v.ext.length = 2 := by rw [he]; rfl
  simp only [forEachRow, rowsOf, h2]
  have hd : v.str.getD 1 0 = sy := by rw [hs]; rfl
  have hd2 : v.ext.getD 1 0 = ny := by rw [he]; rfl
  rw [rowLoop2_eq (k := ny), hd2]
  · congr 2
    funext j
    refine List.map_congr_left fun w hw => ?_
    have hl : w.str.length = 2 := by
      rcases List.mem_cons.1 hw with rfl | hw
      · rw [hs]; rfl
      · exact hr w hw
    rw [List.length_eq_two] at hl
    obtain ⟨a, b, ha⟩ := hl
    simp [MdSpan.addr, ha]
    ring
  · rw [hd]
    have : ((ny * sy : Nat) : Int) ≤ v.spanSize := by exact_mod_cast hge
    push_cast at this
    omega
  · rw [hd]
    have : ((v.spanSize : Nat) : Int) < (((ny + 1) * sy : Nat) : Int) := by exact_mod_cast hlt
    push_cast at this
    omega
  · exact hf

/-- **C23 is false for views without rows.** A strided 4x0 view of an array with rows of length 4 has no cells, but `ForEachRow` calls the
function with a row of 4 elements. -/
theorem forEachRow_empty (fuel : Nat) :
    forEachRow (fuel + 2) [⟨.stride, 100, [4, 0], [1, 4]⟩] = some [[⟨100, 4⟩]] ∧
    rowsOf ⟨.stride, 100, [4, 0], [1, 4]⟩ [⟨.stride, 100, [4, 0], [1, 4]⟩] = [] := by
  constructor
  · simp [forEachRow, rowLoop2, MdSpan.spanSize, requiredStride, advancePtrs, toRows]
  · rfl

/-- **C23 (cells).** If the first stride of a view is one, the elements of the rows are the cells of the view, each one once and in
column-major order. -/
theorem rows_cells (v : MdSpan) (nx ny nz sy sz : Nat) (he : v.ext = [nx, ny, nz]) (hs : v.str = [1, sy, sz]) :
    ((rowsOf v [v]).flatMap fun rows => rows.flatMap RowRef.elems) =
      (List.range nz).flatMap fun l : Nat => (List.range ny).flatMap fun j : Nat => (List.range nx).map fun i : Nat =>
        v.addr [(i : Int), (j : Int), (l : Int)] := by
  have h3 : v.ext.length = 3 := by rw [he]; rfl
  simp only [rowsOf, h3]
  rw [List.flatMap_assoc]
  have h2 : v.ext.getD 2 0 = nz := by rw [he]; rfl
  have h1 : v.ext.getD 1 0 = ny := by rw [he]; rfl
  have h0 : v.ext.getD 0 0 = nx := by rw [he]; rfl
  rw [h2, h1, h0]
  congr 1; funext l
  rw [List.flatMap_map]
  congr 1; funext j
  simp only [List.map_cons, List.map_nil, List.flatMap_cons, List.flatMap_nil, List.append_nil, RowRef.elems]
  refine List.map_congr_left fun i _ => ?_
  simp [MdSpan.addr, hs]
  ring

example : forEachRow 9 [⟨.stride, 100, [2, 3], [1, 10]⟩, ⟨.stride, 500, [2, 3], [1, 7]⟩] =
    some [[⟨100, 2⟩, ⟨500, 2⟩], [⟨110, 2⟩, ⟨507, 2⟩], [⟨120, 2⟩, ⟨514, 2⟩]] := by decide

end Fub
