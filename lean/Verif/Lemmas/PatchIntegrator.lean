import Verif.Model.PatchIntegrator
import Verif.Spec.PatchIntegrator
import Verif.Props.IndexBox
import Verif.Props.Span

namespace Fub
variable {K : Type}

/-! ### Kernels on memory -/

theorem writeList_off (m : Mem K) (ds : List Int) (xs : List K) (a : Int) (h : a ∉ ds) : writeList m ds xs a = m a := by
  induction ds generalizing m xs with
  | nil => rfl
  | cons d ds ih =>
    cases xs with
    | nil => rfl
    | cons x xs =>
      rw [writeList, ih _ _ (fun h' => h (List.mem_cons_of_mem _ h')), Function.update_of_ne (fun h' => h (by rw [h']; exact List.mem_cons_self))]

theorem writeList_congr (m m' : Mem K) (ds : List Int) (xs : List K) (a : Int) (h : m a = m' a) :
    writeList m ds xs a = writeList m' ds xs a := by
  induction ds generalizing m m' xs with
  | nil => exact h
  | cons d ds ih =>
    cases xs with
    | nil => exact h
    | cons x xs =>
      rw [writeList, writeList]
      refine ih _ _ _ ?_
      by_cases ha : a = d
      · subst ha; simp
      · rw [Function.update_of_ne ha, Function.update_of_ne ha, h]

/-- Operations that do not interfere. -/
structure NoAlias (ops : List CellOp) : Prop where
  nodup : (ops.flatMap CellOp.dsts).Nodup
  src : ∀ a ∈ ops, ∀ b ∈ ops, ∀ x ∈ a.dsts, x ∈ b.srcs → a = b

theorem lanesFold_off (F : List K → List K) (m m' : Mem K) (ops : List CellOp) (x : Int) (hx : x ∉ ops.flatMap CellOp.dsts) :
    ops.foldl (fun m' op => writeList m' op.dsts (F (op.srcs.map m))) m' x = m' x := by
  induction ops generalizing m' with
  | nil => rfl
  | cons o ops ih =>
    simp only [List.flatMap_cons, List.mem_append, not_or] at hx
    rw [List.foldl_cons, ih _ hx.2, writeList_off _ _ _ _ hx.1]

theorem lanesFold_on (F : List K → List K) (m m' : Mem K) (ops : List CellOp) (hn : (ops.flatMap CellOp.dsts).Nodup) (op : CellOp)
    (hop : op ∈ ops) (x : Int) (hx : x ∈ op.dsts) :
    ops.foldl (fun m' op => writeList m' op.dsts (F (op.srcs.map m))) m' x = writeList m' op.dsts (F (op.srcs.map m)) x := by
  induction ops generalizing m' with
  | nil => cases hop
  | cons o ops ih =>
    rw [List.flatMap_cons, List.nodup_append] at hn
    rcases List.mem_cons.1 hop with rfl | hop
    · rw [List.foldl_cons, lanesFold_off]
      intro hx'
      exact hn.2.2 x hx x hx' rfl
    · rw [List.foldl_cons, ih _ hn.2.1 hop]
      refine writeList_congr _ _ _ _ _ (writeList_off _ _ _ _ fun h => ?_)
      exact hn.2.2 x h x (List.mem_flatMap.2 ⟨op, hop, hx⟩) rfl

/-- Any chunking of non-interfering operations has the effect of the single operations on the initial memory. -/
theorem chunks_spec (F : List K → List K) (cs : List (List CellOp)) (m : Mem K) (h : NoAlias cs.flatten) :
    (∀ op ∈ cs.flatten, ∀ x ∈ op.dsts, cs.foldl (runLanes F) m x = runOp F m op x) ∧
    (∀ x, x ∉ cs.flatten.flatMap CellOp.dsts → cs.foldl (runLanes F) m x = m x) := by
  induction cs generalizing m with
  | nil => simp
  | cons c cs ih =>
    have hn := h.nodup
    rw [List.flatten_cons, List.flatMap_append, List.nodup_append] at hn
    have h' : NoAlias cs.flatten := ⟨hn.2.1, fun a ha b hb => h.src a (by simp only [List.flatten_cons, List.mem_append]; exact .inr ha) b
      (by simp only [List.flatten_cons, List.mem_append]; exact .inr hb)⟩
    obtain ⟨ih1, ih2⟩ := ih (runLanes F m c) h'
    constructor
    · intro op hop x hx
      rw [List.flatten_cons, List.mem_append] at hop
      rcases hop with hop | hop
      · rw [List.foldl_cons, ih2, runLanes, lanesFold_on F m m c hn.1 op hop x hx]
        · rfl
        · intro hx'
          exact hn.2.2 x (List.mem_flatMap.2 ⟨op, hop, hx⟩) x hx' rfl
      · have hxc : x ∉ c.flatMap CellOp.dsts := fun hx' => hn.2.2 x hx' x (List.mem_flatMap.2 ⟨op, hop, hx⟩) rfl
        rw [List.foldl_cons, ih1 op hop x hx, runOp, runOp]
        have hsrc : op.srcs.map (runLanes F m c) = op.srcs.map m := by
          refine List.map_congr_left fun y hy => ?_
          refine lanesFold_off F m m c y fun hy' => ?_
          obtain ⟨a, ha, hya⟩ := List.mem_flatMap.1 hy'
          have := h.src a (by simp only [List.flatten_cons, List.mem_append]; exact .inl ha) op
            (by simp only [List.flatten_cons, List.mem_append]; exact .inr hop) y hya hy
          subst this
          exact hn.2.2 y hy' y (List.mem_flatMap.2 ⟨a, hop, hya⟩) rfl
        rw [hsrc]
        exact writeList_congr _ _ _ _ _ (lanesFold_off F m m c x hxc)
    · intro x hx
      simp only [List.flatten_cons, List.flatMap_append, List.mem_append, not_or] at hx
      rw [List.foldl_cons, ih2 x hx.2]
      exact lanesFold_off F m m c x hx.1

/-- Two chunkings of the same non-interfering operations have the same effect. -/
theorem chunks_eq (F : List K → List K) (cs ds : List (List CellOp)) (m : Mem K) (h : NoAlias cs.flatten) (he : cs.flatten = ds.flatten) :
    cs.foldl (runLanes F) m = ds.foldl (runLanes F) m := by
  funext x
  have h1 := chunks_spec F cs m h
  have h2 := chunks_spec F ds m (he ▸ h)
  by_cases hx : x ∈ cs.flatten.flatMap CellOp.dsts
  · obtain ⟨op, hop, hx⟩ := List.mem_flatMap.1 hx
    rw [h1.1 op hop x hx, h2.1 op (he ▸ hop) x hx]
  · rw [h1.2 x hx, h2.2 x (he ▸ hx)]

theorem seq_chunks (F : List K → List K) (ops : List CellOp) (m : Mem K) :
    ops.foldl (runOp F) m = (ops.map fun o => [o]).foldl (runLanes F) m := by
  rw [List.foldl_map]; rfl

theorem flatten_singletons {α : Type} (l : List α) : (l.map fun a => [a]).flatten = l := by
  induction l with
  | nil => rfl
  | cons a l ih => simp [ih]

theorem lanes_add (srcs dsts : List Int) (w n : Nat) : lanes srcs dsts (w + n) =
    lanes srcs dsts w ++ lanes (srcs.map fun a => a + (w : Int)) (dsts.map fun a => a + (w : Int)) n := by
  simp only [lanes, List.range_add, List.map_append, List.map_map]
  congr 1
  refine List.map_congr_left fun j _ => ?_
  simp only [Function.comp_def, CellOp.mk.injEq]
  constructor <;> (refine List.map_congr_left fun a _ => ?_) <;> push_cast <;> ring

theorem simdRow_chunks (F : List K → List K) (w : Nat) (hw : 0 < w) (n : Nat) : ∀ (m : Mem K) (srcs dsts : List Int),
    ∃ cs : List (List CellOp), simdRow F w hw m srcs dsts n = cs.foldl (runLanes F) m ∧ cs.flatten = lanes srcs dsts n := by
  induction n using Nat.strong_induction_on with
  | _ n ih =>
    intro m srcs dsts
    rw [simdRow]
    split
    · rename_i h
      obtain ⟨cs, h1, h2⟩ := ih (n - w) (by omega) (runLanes F m (lanes srcs dsts w)) (srcs.map fun a => a + (w : Int))
        (dsts.map fun a => a + (w : Int))
      refine ⟨lanes srcs dsts w :: cs, by rw [h1]; rfl, ?_⟩
      rw [List.flatten_cons, h2, ← lanes_add]
      congr 1; omega
    · exact ⟨[lanes srcs dsts n], rfl, by simp⟩

theorem foldl_chunks {α : Type} (F : List K → List K) (f : Mem K → α → Mem K) (g : α → List CellOp) (l : List α)
    (hf : ∀ a ∈ l, ∀ m, ∃ cs : List (List CellOp), f m a = cs.foldl (runLanes F) m ∧ cs.flatten = g a) (m : Mem K) :
    ∃ cs : List (List CellOp), l.foldl f m = cs.foldl (runLanes F) m ∧ cs.flatten = l.flatMap g := by
  induction l generalizing m with
  | nil => exact ⟨[], rfl, rfl⟩
  | cons a l ih =>
    obtain ⟨c1, h1, h2⟩ := hf a (by simp) m
    obtain ⟨c2, h3, h4⟩ := ih (fun b hb => hf b (by simp [hb])) (f m a)
    exact ⟨c1 ++ c2, by rw [List.foldl_cons, h3, h1, List.foldl_append], by simp [h2, h4]⟩

/-! ### Rows of boxes -/

theorem forEachIndex_rows {n : Nat} (b : IndexBox (n + 1)) : forEachIndex b = (boxRows b).flatten := by
  induction n with
  | zero =>
    simp only [forEachIndex, boxRows, List.map_cons, List.map_nil, List.flatten_cons, List.flatten_nil, List.append_nil]
    rw [List.map_eq_flatMap]
    refine congrArg₂ _ ?_ rfl
    funext c
    congr 1
    funext d
    fin_cases d
    rfl
  | succ n ih =>
    have hT : forEachIndex (⟨Fin.tail b.lower, Fin.tail b.upper⟩ : IndexBox (n + 1)) =
      (loopRange (Fin.tail b.lower (Fin.last n)) (Fin.tail b.upper (Fin.last n))).flatMap fun c =>
        (forEachIndex (⟨Fin.init (Fin.tail b.lower), Fin.init (Fin.tail b.upper)⟩ : IndexBox n)).map fun i => Fin.snoc i c := by
      rw [forEachIndex]
    rw [boxRows, ← List.flatMap_def, hT, List.flatMap_assoc, forEachIndex]
    refine List.flatMap_congr fun c _ => ?_
    rw [ih, boxRows, ← List.flatMap_def, List.map_flatMap, List.flatMap_map]
    refine congrArg₂ _ (funext fun j => ?_) rfl
    rw [List.map_map]
    refine List.map_congr_left fun x _ => ?_
    exact (Fin.cons_snoc_eq_snoc_cons x j c).symm

theorem loopRange_zero (l : Int) (e : Nat) : loopRange l (l + e) = (List.range e).map fun k : Nat => l + (k : Int) := by
  simp [loopRange]

/-- All address tuples that `ForEachRow` hands out, element by element. -/
def rowTuples (rows : List (List RowRef)) : List (List Int) :=
  rows.flatMap fun row => (List.range ((row.map RowRef.len).headD 0)).map fun k : Nat => row.map fun r => r.start + (k : Int)

/-- The cells of the views at the same position as cell `i` of `v`. -/
def tupleAt {n : Nat} (v : PatchView n) (vs : List (PatchView n)) (i : Index n) : List Int :=
  vs.map fun u => u.mds.addr (List.ofFn fun d => i d - v.origin d)

/-- Views that `ForEachRow` can iterate together: all have the right number of dimensions and contiguous rows; the first one is a strided view with at
least one cell and rows that do not overlap. -/
structure RowViews {n : Nat} (v : PatchView n) (vs : List (PatchView n)) : Prop where
  rank : v.mds.ext.length = n
  strides : ∀ u ∈ v :: vs, u.mds.str.length = n
  contiguous : ∀ u ∈ v :: vs, u.mds.str.getD 0 0 = 1
  layout : v.mds.layout = .stride
  nested : NestedStrides 1 v.mds.ext v.mds.str
  nonempty : ∀ e ∈ v.mds.ext, 0 < e

theorem rowTuples_of {α : Type} (l : List α) (vs : List MdSpan) (v : MdSpan) (s : α → MdSpan → Int) (len : Nat) :
    rowTuples (l.map fun a => (v :: vs).map fun w => ⟨s a w, len⟩) =
      l.flatMap fun a => (List.range len).map fun k : Nat => (v :: vs).map fun w => s a w + (k : Int) := by
  simp only [rowTuples, List.flatMap_map]
  congr 1
  funext a
  simp only [List.map_map, List.map_cons, List.headD_cons, Function.comp_def]

theorem forEachIndex_one (b : IndexBox 1) : forEachIndex b = (loopRange (b.lower 0) (b.upper 0)).map fun i => ![i] := by
  simp only [forEachIndex, List.map_cons, List.map_nil]
  rw [List.map_eq_flatMap]
  congr 1
  funext i
  congr 1
  funext d
  fin_cases d
  rfl

theorem forEachRow_flat {n : Nat} (hn : n = 1 ∨ n = 2 ∨ n = 3) (v : PatchView n) (vs : List (PatchView n)) (h : RowViews v vs) (fuel : Nat)
    (hf : v.mds.ext.getD 1 0 < fuel) :
    ∃ rows, forEachRow fuel ((v :: vs).map PatchView.mds) = some rows ∧
      rowTuples rows = (forEachIndex v.box).map (tupleAt v (v :: vs)) ∧ ∀ row ∈ rows, row.length = vs.length + 1 := by
  rcases hn with rfl | rfl | rfl
  · refine ⟨_, forEachRow_spec fuel v.mds (vs.map PatchView.mds) (.inl h.rank) ?_, ?_, ?_⟩
    · intro w hw
      rw [← List.map_cons, List.mem_map] at hw
      obtain ⟨u, hu, rfl⟩ := hw
      rw [(h.strides u hu), h.rank]
    · have hl : v.mds.ext.length = 1 := h.rank
      simp only [rowsOf, hl]
      have := rowTuples_of [()] (vs.map PatchView.mds) v.mds (fun _ w => w.addr [0]) (v.mds.ext.getD 0 0)
      simp only [List.map_cons, List.map_nil, List.flatMap_cons, List.flatMap_nil, List.append_nil] at this ⊢
      rw [this, forEachIndex_one]
      simp only [PatchView.box]
      rw [loopRange_zero, List.map_map, List.map_map]
      refine List.map_congr_left fun k _ => ?_
      simp only [Function.comp_def, tupleAt, List.map_map, List.map_cons]
      have key : ∀ u ∈ v :: vs, u.mds.addr [0] + (k : Int) = u.mds.addr (List.ofFn fun d : Fin 1 => ![v.origin 0 + (k : Int)] d - v.origin d) := by
        intro u hu
        have h1 := (h.strides u hu)
        have h2 := h.contiguous u hu
        rw [List.length_eq_one_iff] at h1
        obtain ⟨a, ha⟩ := h1
        simp only [ha, List.getD_cons_zero] at h2
        subst h2
        simp [MdSpan.addr, ha]
      exact congrArg₂ _ (key v (by simp)) (List.map_congr_left fun u hu => key u (by simp [hu]))
    · have hl : v.mds.ext.length = 1 := h.rank
      simp only [rowsOf, hl]
      simp
  · obtain ⟨nx, ny, he⟩ := List.length_eq_two.1 h.rank
    obtain ⟨sx, sy, hs⟩ := List.length_eq_two.1 (h.strides v (by simp))
    have hnest := h.nested
    rw [he, hs] at hnest
    obtain ⟨h1, h2, _⟩ := hnest
    have hnx : 0 < nx := h.nonempty nx (by simp [he])
    have hny : 0 < ny := h.nonempty ny (by simp [he])
    have hsy : 0 < sy := lt_of_lt_of_le (Nat.mul_pos hnx h1) h2
    refine ⟨_, forEachRow_two_partial fuel v.mds (vs.map PatchView.mds) nx ny sx sy h.layout he hs ?_ hsy h2 (.inl hny) (by simpa [he] using hf), ?_, ?_⟩
    · intro w hw
      obtain ⟨u, hu, rfl⟩ := List.mem_map.1 hw
      exact h.strides u (by simp [hu])
    · have hl : v.mds.ext.length = 2 := h.rank
      simp only [rowsOf, hl]
      rw [rowTuples_of, forEachIndex_two, List.map_flatMap]
      simp only [PatchView.box]
      rw [show (((1 : Fin 2) : Nat)) = 1 from rfl, show (((0 : Fin 2) : Nat)) = 0 from rfl, loopRange_zero, loopRange_zero, List.flatMap_map]
      congr 1
      funext j
      rw [List.map_map, List.map_map]
      refine List.map_congr_left fun k _ => ?_
      simp only [Function.comp_def, tupleAt, List.map_map, List.map_cons]
      have key : ∀ u ∈ v :: vs, u.mds.addr [0, (j : Int)] + (k : Int) =
          u.mds.addr (List.ofFn fun d : Fin 2 => ![v.origin 0 + (k : Int), v.origin 1 + (j : Int)] d - v.origin d) := by
        intro u hu
        have h1 := (h.strides u hu)
        have h2 := h.contiguous u hu
        rw [List.length_eq_two] at h1
        obtain ⟨a, b, ha⟩ := h1
        simp only [ha, List.getD_cons_zero] at h2
        subst h2
        simp [MdSpan.addr, ha]
        ring
      exact congrArg₂ _ (key v (by simp)) (List.map_congr_left fun u hu => key u (by simp [hu]))
    · have hl : v.mds.ext.length = 2 := h.rank
      simp only [rowsOf, hl]
      intro row hrow
      obtain ⟨j, _, rfl⟩ := List.mem_map.1 hrow
      simp
  · refine ⟨_, forEachRow_spec fuel v.mds (vs.map PatchView.mds) (.inr h.rank) ?_, ?_, ?_⟩
    · intro w hw
      rw [← List.map_cons, List.mem_map] at hw
      obtain ⟨u, hu, rfl⟩ := hw
      rw [(h.strides u hu), h.rank]
    · have hl : v.mds.ext.length = 3 := h.rank
      simp only [rowsOf, hl]
      rw [forEachIndex_rows, boxRows, ← List.flatMap_def, List.map_flatMap, forEachIndex_two, List.flatMap_assoc, rowTuples, List.flatMap_assoc]
      simp only [PatchView.box, Fin.tail]
      rw [show ((Fin.succ 1 : Fin 3) : Nat) = 2 from rfl, show ((Fin.succ 0 : Fin 3) : Nat) = 1 from rfl, show (((0 : Fin 3) : Nat)) = 0 from rfl,
        loopRange_zero, loopRange_zero, loopRange_zero, List.flatMap_map]
      congr 1
      funext l
      simp only [List.flatMap_map, List.map_map]
      congr 1
      funext j
      simp only [List.map_cons, List.headD_cons]
      refine List.map_congr_left fun k _ => ?_
      simp only [Function.comp_def, tupleAt, List.map_map, List.map_cons]
      have key : ∀ u ∈ v :: vs, u.mds.addr [0, (j : Int), (l : Int)] + (k : Int) =
          u.mds.addr (List.ofFn fun d : Fin 3 =>
            (Fin.cons (v.origin 0 + (k : Int)) ![v.origin (Fin.succ 0) + (j : Int), v.origin (Fin.succ 1) + (l : Int)] : Index 3) d - v.origin d) := by
        intro u hu
        have h1 := (h.strides u hu)
        have h2 := h.contiguous u hu
        rw [List.length_eq_three] at h1
        obtain ⟨a, b, c, ha⟩ := h1
        simp only [ha, List.getD_cons_zero] at h2
        subst h2
        simp [MdSpan.addr, ha]
        ring
      exact congrArg₂ _ (key v (by simp)) (List.map_congr_left fun u hu => key u (by simp [hu]))
    · have hl : v.mds.ext.length = 3 := h.rank
      simp only [rowsOf, hl]
      intro row hrow
      obtain ⟨l, _, hrow⟩ := List.mem_flatMap.1 hrow
      obtain ⟨j, _, rfl⟩ := List.mem_map.1 hrow
      simp

/-! ### Operations of rows -/

/-- The operation on one tuple of addresses; the first `nf` are written. -/
def tupleOp (nf : Nat) (as : List Int) : CellOp := ⟨as.drop nf, as.take nf⟩

theorem lanes_tuples (nf : Nat) (row : List RowRef) (len : Nat) :
    lanes ((row.drop nf).map RowRef.start) ((row.take nf).map RowRef.start) len =
      ((List.range len).map fun k : Nat => row.map fun r => r.start + (k : Int)).map (tupleOp nf) := by
  simp only [lanes, List.map_map]
  refine List.map_congr_left fun k _ => ?_
  simp [tupleOp, Function.comp_def, List.map_drop, List.map_take]

theorem fluxRows_chunks (F : List K → List K) (w : Nat) (hw : 0 < w) (nf : Nat) (rows : List (List RowRef)) (m : Mem K) :
    ∃ cs : List (List CellOp), rows.foldl (fluxRowFn F w hw nf) m = cs.foldl (runLanes F) m ∧
      cs.flatten = (rowTuples rows).map (tupleOp nf) := by
  have := foldl_chunks F (fluxRowFn F w hw nf)
    (fun row => ((List.range ((row.map RowRef.len).headD 0)).map fun k : Nat => row.map fun r => r.start + (k : Int)).map (tupleOp nf)) rows
    (fun row _ m => by
      obtain ⟨cs, h1, h2⟩ := simdRow_chunks F w hw ((row.map RowRef.len).headD 0) m ((row.drop nf).map RowRef.start)
        ((row.take nf).map RowRef.start)
      exact ⟨cs, h1, by rw [h2, lanes_tuples]⟩) m
  rwa [rowTuples, List.map_flatMap]

theorem updateRowFn_eq [Field K] (w : Nat) (hw : 0 < w) (c : K) (m : Mem K) (row : List RowRef) (h : row ≠ []) :
    updateRowFn w hw c m row = fluxRowFn (consKernel c) w hw 1 m row := by
  cases row with
  | nil => exact absurd rfl h
  | cons r rs => simp [updateRowFn, fluxRowFn]

theorem foldlM_chunks {α : Type} (F : List K → List K) (f : Mem K → α → Option (Mem K)) (g : α → List CellOp) (l : List α)
    (hf : ∀ a ∈ l, ∀ m, ∃ cs : List (List CellOp), f m a = some (cs.foldl (runLanes F) m) ∧ cs.flatten = g a) (m : Mem K) :
    ∃ cs : List (List CellOp), l.foldlM f m = some (cs.foldl (runLanes F) m) ∧ cs.flatten = l.flatMap g := by
  induction l generalizing m with
  | nil => exact ⟨[], rfl, rfl⟩
  | cons a l ih =>
    obtain ⟨c1, h1, h2⟩ := hf a (by simp) m
    obtain ⟨c2, h3, h4⟩ := ih (fun b hb => hf b (by simp [hb])) (c1.foldl (runLanes F) m)
    refine ⟨c1 ++ c2, ?_, by simp [h2, h4]⟩
    rw [List.foldlM_cons, h1, List.foldl_append]
    exact h3

theorem addr_local {n : Nat} (u v : PatchView n) (i : Index n) :
    u.mds.addr (List.ofFn fun d => i d - v.origin d) = u.addr (fun d => i d - v.origin d + u.origin d) := by
  simp [PatchView.addr]

theorem sliceStrides_ofFn {n : Nat} (str : List Nat) (hl : str.length = n) (a b : Fin n → Int) :
    sliceStrides str (List.ofFn fun d => Slice.range (a d) (b d)) = str := by
  induction n generalizing str with
  | zero => simp [List.length_eq_zero_iff.1 hl, sliceStrides]
  | succ n ih =>
    cases str with
    | nil => simp at hl
    | cons s str =>
      have := ih str (by simpa using hl) (fun d => a d.succ) (fun d => b d.succ)
      simp only [List.ofFn_succ, sliceStrides, List.zip_cons_cons] at this ⊢
      rw [List.filter_cons_of_pos rfl, List.map_cons, this]

theorem subview_str {n : Nat} (v : PatchView n) (h : v.mds.str.length = n) (b : IndexBox n) : (v.subview b).mds.str = v.mds.str :=
  sliceStrides_ofFn _ h _ _

theorem nested_take (m : Nat) (ext str : List Nat) (n : Nat) (h : NestedStrides m ext str) : NestedStrides m (ext.take n) (str.take n) := by
  induction n generalizing m ext str with
  | zero => simp [NestedStrides]
  | succ n ih =>
    cases ext <;> cases str <;> simp only [NestedStrides] at h ⊢
    · trivial
    · exact ⟨h.1, ih _ _ _ h.2⟩

end Fub
