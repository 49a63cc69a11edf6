import Verif.Lemmas.PatchIntegrator
import Mathlib.Algebra.BigOperators.Group.Finset.Basic
import Mathlib.Algebra.BigOperators.Ring.Finset
import Mathlib.Tactic.Ring
import Mathlib.Tactic.Abel

/-!
C15 (conservative update), C16 (the vectorised sweeps compute the same as the sequential ones).
-/

namespace Fub
variable {K : Type}

/-! ### The sequential update -/

/-- The operation of one cell. -/
def updateOp {n : Nat} (next prev flux : PatchView (n + 1)) (d : Fin n) (i : Index (n + 1)) : CellOp :=
  ⟨[prev.addr i, flux.addr i, flux.addr (shift i d.castSucc 1)], [next.addr i]⟩

theorem updateSeq_ops [Field K] {n : Nat} (next prev flux : PatchView (n + 1)) (dt dx : K) (d : Fin n) (m : Mem K) :
    updateSeq next prev flux dt dx d m =
      (((forEachIndex next.box).map (updateOp next prev flux d)).map fun o => [o]).foldl (runLanes (consKernel (dt / dx))) m := by
  rw [← seq_chunks, List.foldl_map]; rfl

theorem update_noAlias {n : Nat} {next prev flux : PatchView (n + 1)} {d : Fin n} (h : UpdateNoAlias next prev flux d) :
    NoAlias ((forEachIndex next.box).map (updateOp next prev flux d)) := by
  have hs := forEachIndex_spec next.box
  refine ⟨?_, ?_⟩
  · have : ((forEachIndex next.box).map (updateOp next prev flux d)).flatMap CellOp.dsts = (forEachIndex next.box).map next.addr := by
      rw [List.flatMap_map, List.map_eq_flatMap]; rfl
    rw [this]
    exact hs.2.2.map_on fun i hi j hj e => h.inj i ((hs.1 i).1 hi) j ((hs.1 j).1 hj) e
  · intro a ha b hb x hx hy
    obtain ⟨i, hi, rfl⟩ := List.mem_map.1 ha
    obtain ⟨j, hj, rfl⟩ := List.mem_map.1 hb
    have hi := (hs.1 i).1 hi
    have hj := (hs.1 j).1 hj
    simp only [updateOp, List.mem_cons, List.not_mem_nil, or_false] at hx hy
    subst hx
    rcases hy with hy | hy | hy
    · rw [h.prev i hi j hj hy]
    · exact absurd hy (h.flux i hi j hj).1
    · exact absurd hy (h.flux i hi j hj).2

/-- **C15 (cell by cell).** The sequential update writes `prev + dt/dx (f_left - f_right)` into every cell of the destination and nothing
else, for every rank, direction, box, stride and content of the memory; updating in place is allowed. -/
theorem updateSeq_spec [Field K] {n : Nat} (next prev flux : PatchView (n + 1)) (dt dx : K) (d : Fin n) (m : Mem K)
    (h : UpdateNoAlias next prev flux d) : IsConservativeUpdate next prev flux dt dx d m (updateSeq next prev flux dt dx d m) := by
  have hs := forEachIndex_spec next.box
  have := chunks_spec (consKernel (dt / dx)) (((forEachIndex next.box).map (updateOp next prev flux d)).map fun o => [o]) m
    (by rw [flatten_singletons]; exact update_noAlias h)
  rw [flatten_singletons, ← updateSeq_ops] at this
  constructor
  · intro i hi
    rw [this.1 (updateOp next prev flux d i) (List.mem_map.2 ⟨i, (hs.1 i).2 hi, rfl⟩) _ (by simp [updateOp])]
    simp [runOp, updateOp, consKernel, writeList]
  · intro a ha
    refine this.2 a fun hx => ?_
    obtain ⟨o, ho, hx⟩ := List.mem_flatMap.1 hx
    obtain ⟨i, hi, rfl⟩ := List.mem_map.1 ho
    simp only [updateOp, List.mem_singleton] at hx
    exact ha i ((hs.1 i).1 hi) hx

/-! ### Conservation -/

theorem mem_finset {n : Nat} (b : IndexBox n) (i : Index n) : i ∈ b.finset ↔ i ∈ b.toSet := by
  simp [IndexBox.finset, IndexBox.toSet]

theorem sum_telescope [Field K] {n : Nat} (b : IndexBox n) (d : Fin n) (hb : b.lower d ≤ b.upper d) (f : Index n → K) :
    ∑ i ∈ b.finset, (f i - f (shift i d 1)) =
      ∑ i ∈ (b.layer d (b.lower d)).finset, f i - ∑ i ∈ (b.layer d (b.upper d)).finset, f i := by
  -- faces = box ∪ last layer = first layer ∪ shifted box
  have hsh : ∑ i ∈ b.finset, f (shift i d 1) = ∑ i ∈ (b.grow d (-1) 1).finset, f i := by
    refine Finset.sum_bij' (fun i _ => shift i d 1) (fun i _ => shift i d (-1)) ?_ ?_ ?_ ?_ ?_
    · intro i hi
      rw [mem_finset] at hi ⊢
      rw [grow_spec]
      refine ⟨by have := hi d; simp [shift]; omega, fun e he => ?_⟩
      have := hi e
      simpa [shift, he] using this
    · intro i hi
      rw [mem_finset] at hi ⊢
      rw [grow_spec] at hi
      intro e
      by_cases he : e = d
      · subst he; simp [shift]; omega
      · simpa [shift, he] using hi.2 e he
    · intro i _; exact (shift_spec i d 1).2.2.2.1
    · intro i _; have := (shift_spec i d (-1)).2.2.2.1; simpa using this
    · intro i _; rfl
  rw [Finset.sum_sub_distrib, hsh]
  have h1 : ∑ i ∈ (b.grow d 0 1).finset, f i = ∑ i ∈ b.finset, f i + ∑ i ∈ (b.layer d (b.upper d)).finset, f i := by
    rw [← Finset.sum_union]
    · congr 1
      ext i
      simp only [Finset.mem_union, mem_finset, grow_spec]
      simp only [IndexBox.toSet, IndexBox.layer, Set.mem_setOf_eq]
      constructor
      · rintro ⟨h1, h2⟩
        by_cases hd : i d < b.upper d
        · left; intro e; by_cases he : e = d
          · subst he; omega
          · exact h2 e he
        · right; intro e; by_cases he : e = d
          · subst he; simp; omega
          · simpa [he] using h2 e he
      · rintro (h | h)
        · exact ⟨by have := h d; omega, fun e _ => h e⟩
        · refine ⟨by have := h d; simp at this; omega, fun e he => by simpa [he] using h e⟩
    · rw [Finset.disjoint_left]
      intro i hi hj
      rw [mem_finset] at hi hj
      have h1 := hi d
      have h2 := hj d
      simp [IndexBox.layer] at h2
      omega
  have h2 : ∑ i ∈ (b.grow d 0 1).finset, f i = ∑ i ∈ (b.grow d (-1) 1).finset, f i + ∑ i ∈ (b.layer d (b.lower d)).finset, f i := by
    rw [← Finset.sum_union]
    · congr 1
      ext i
      simp only [Finset.mem_union, mem_finset, grow_spec]
      simp only [IndexBox.toSet, IndexBox.layer, Set.mem_setOf_eq]
      constructor
      · rintro ⟨h1, h2⟩
        by_cases hd : b.lower d < i d
        · left; exact ⟨by omega, h2⟩
        · right; intro e; by_cases he : e = d
          · subst he; simp; omega
          · simpa [he] using h2 e he
      · rintro (h | h)
        · exact ⟨by omega, h.2⟩
        · refine ⟨by have := h d; simp at this; omega, fun e he => by simpa [he] using h e⟩
    · rw [Finset.disjoint_left]
      intro i hi hj
      rw [mem_finset] at hi hj
      rw [grow_spec] at hi
      have h2 := hj d
      simp [IndexBox.layer] at h2
      omega
  have : ∑ i ∈ b.finset, f i = ∑ i ∈ (b.grow d (-1) 1).finset, f i + ∑ i ∈ (b.layer d (b.lower d)).finset, f i -
      ∑ i ∈ (b.layer d (b.upper d)).finset, f i := by rw [← h2, h1]; ring
  rw [this]; ring

/-- The cells of component `c` of a view: the box restricted to the last coordinate `c`. -/
theorem component_subset {n : Nat} (b : IndexBox (n + 1)) (c : Int) (hc : b.lower (Fin.last n) ≤ c ∧ c < b.upper (Fin.last n)) :
    (b.layer (Fin.last n) c).toSet ⊆ b.toSet := by
  intro i hi d
  have := hi d
  by_cases hd : d = Fin.last n
  · subst hd; simp [IndexBox.layer] at this; omega
  · simpa [IndexBox.layer, hd] using this

/-- **C15 (conservation).** Over any patch the sum of a component changes by `dt/dx` times the difference of the fluxes through the two
outer layers of faces in the direction of the update: whatever flows through interior faces cancels exactly. -/
theorem update_conservative [Field K] {n : Nat} (next prev flux : PatchView (n + 1)) (dt dx : K) (d : Fin n) (m m' : Mem K)
    (h : IsConservativeUpdate next prev flux dt dx d m m') (c : Int)
    (hc : next.box.lower (Fin.last n) ≤ c ∧ c < next.box.upper (Fin.last n)) :
    let cells := next.box.layer (Fin.last n) c
    ∑ i ∈ cells.finset, m' (next.addr i) = ∑ i ∈ cells.finset, m (prev.addr i) +
      dt / dx * (∑ i ∈ (cells.layer d.castSucc (next.box.lower d.castSucc)).finset, m (flux.addr i) -
        ∑ i ∈ (cells.layer d.castSucc (next.box.upper d.castSucc)).finset, m (flux.addr i)) := by
  intro cells
  have hl : cells.lower d.castSucc = next.box.lower d.castSucc := by
    simp [cells, IndexBox.layer, (Fin.castSucc_lt_last d).ne]
  have hu : cells.upper d.castSucc = next.box.upper d.castSucc := by
    simp [cells, IndexBox.layer, (Fin.castSucc_lt_last d).ne]
  rw [← hl, ← hu, ← sum_telescope cells d.castSucc (by rw [hl, hu]; simp [PatchView.box]) fun i => m (flux.addr i), Finset.mul_sum,
    ← Finset.sum_add_distrib]
  exact Finset.sum_congr rfl fun i hi => h.cells i (component_subset _ c hc ((mem_finset _ _).1 hi))

/-! ### The vectorised update -/

theorem subview_origin {n : Nat} (v : PatchView n) (b : IndexBox n) : (v.subview b).origin = b.lower := rfl

theorem sliceLast_props {n : Nat} (v : PatchView (n + 1)) (hl : v.mds.layout = .stride) (c : Int) :
    (v.sliceLast c).mds.layout = .stride ∧ (v.sliceLast c).mds.ext = v.mds.ext.take n ∧ (v.sliceLast c).mds.str = v.mds.str.take n ∧
      (v.sliceLast c).origin = fun d => v.origin d.castSucc := by
  unfold PatchView.sliceLast
  rw [hl]
  exact ⟨rfl, rfl, rfl, rfl⟩

theorem getD_take (l : List Nat) (n k : Nat) (h : k < n) : (l.take n).getD k 0 = l.getD k 0 := by
  simp only [List.getD_eq_getElem?_getD, List.getElem?_take_of_lt h]

theorem sliceLast_box {n : Nat} (v : PatchView (n + 1)) (hl : v.mds.layout = .stride) (c : Int) :
    (v.sliceLast c).box = ⟨Fin.init v.box.lower, Fin.init v.box.upper⟩ := by
  obtain ⟨-, h1, -, h2⟩ := sliceLast_props v hl c
  ext d
  · simp [PatchView.box, h2, Fin.init]
  · simp only [PatchView.box, h1, h2, Fin.init, Fin.val_castSucc]
    rw [getD_take _ _ _ d.isLt]

theorem updateRows_tuples {n : Nat} (hn : n = 1 ∨ n = 2 ∨ n = 3) (next prev flux : PatchView (n + 1)) (d : Fin n) (hv : UpdateViews next prev flux)
    (fuel : Nat) (hf : next.mds.ext.getD 1 0 < fuel) (c : Int) :
    ∃ rows, updateRows fuel next prev flux d c = some rows ∧ (∀ row ∈ rows, row ≠ []) ∧
      (rowTuples rows).map (tupleOp 1) = ((forEachIndex (⟨Fin.init next.box.lower, Fin.init next.box.upper⟩ : IndexBox n)).map
        fun i => (Fin.snoc i (next.origin (Fin.last n) + c) : Index (n + 1))).map (updateOp next prev flux d) := by
  have hn0 : 0 < n := by omega
  obtain ⟨hln, hen, hsn, hon⟩ := sliceLast_props next hv.stride.1 c
  obtain ⟨hlp, hep, hsp, hop⟩ := sliceLast_props prev hv.stride.2.1 c
  have hL : (flux.subview next.box).mds.layout = .stride := rfl
  have hR : (flux.subview (next.box.grow d.castSucc (-1) 1)).mds.layout = .stride := rfl
  obtain ⟨hlL, heL, hsL, hoL⟩ := sliceLast_props (flux.subview next.box) hL c
  obtain ⟨hlR, heR, hsR, hoR⟩ := sliceLast_props (flux.subview (next.box.grow d.castSucc (-1) 1)) hR c
  rw [subview_str _ hv.wf.2.2.2] at hsL hsR
  have hr : RowViews (next.sliceLast c) [prev.sliceLast c, (flux.subview next.box).sliceLast c,
      (flux.subview (next.box.grow d.castSucc (-1) 1)).sliceLast c] := by
    refine ⟨by rw [hen]; simp [hv.wf.1.1], ?_, ?_, hln, by rw [hen, hsn]; exact nested_take _ _ _ _ hv.nested,
      fun e he => hv.nonempty e (by rw [hen] at he; exact List.mem_of_mem_take he)⟩
    · intro u hu
      simp only [List.mem_cons, List.not_mem_nil, or_false] at hu
      rcases hu with rfl | rfl | rfl | rfl <;> simp only [hsn, hsp, hsL, hsR, List.length_take, hv.wf.1.2, hv.wf.2.1.2, hv.wf.2.2.2] <;> omega
    · intro u hu
      simp only [List.mem_cons, List.not_mem_nil, or_false] at hu
      rcases hu with rfl | rfl | rfl | rfl <;> simp only [hsn, hsp, hsL, hsR] <;> rw [getD_take _ _ _ hn0]
      exacts [hv.contiguous.1, hv.contiguous.2.1, hv.contiguous.2.2, hv.contiguous.2.2]
  obtain ⟨rows, h1, h2, h3⟩ := forEachRow_flat hn _ _ hr fuel (by
    rw [hen]
    refine lt_of_le_of_lt ?_ hf
    by_cases h : 1 < n
    · rw [getD_take _ _ _ h]
    · rw [List.getD_eq_default _ _ (by simp; omega)]; omega)
  refine ⟨rows, h1, fun row hr h => ?_, ?_⟩
  · have := h3 row hr; rw [h] at this; simp at this
  · rw [h2, sliceLast_box _ hv.stride.1, List.map_map, List.map_map]
    refine List.map_congr_left fun i _ => ?_
    have hst : ∀ {v : PatchView (n + 1)}, v.mds.layout = .stride → (v.mds.layout = .left → v.mds.str = stridesLeft v.mds.ext) :=
      fun h h' => by rw [h] at h'; cases h'
    have e1 : (next.sliceLast c).mds.addr (List.ofFn fun e => i e - (next.sliceLast c).origin e) =
        next.addr (Fin.snoc i (next.origin (Fin.last n) + c)) := by
      rw [addr_local, sliceLast_addr _ hv.wf.1.2 (hst hv.stride.1)]; congr 2; simp
    have e2 : (prev.sliceLast c).mds.addr (List.ofFn fun e => i e - (next.sliceLast c).origin e) =
        prev.addr (Fin.snoc i (next.origin (Fin.last n) + c)) := by
      rw [addr_local, sliceLast_addr _ hv.wf.2.1.2 (hst hv.stride.2.1)]
      simp [hon, hop, hv.same]
    have e3 : ((flux.subview next.box).sliceLast c).mds.addr (List.ofFn fun e => i e - (next.sliceLast c).origin e) =
        flux.addr (Fin.snoc i (next.origin (Fin.last n) + c)) := by
      rw [addr_local, sliceLast_addr _ (by rw [subview_str _ hv.wf.2.2.2]; exact hv.wf.2.2.2) (hst hL), subview_addr _ hv.wf.2.2.2]
      simp only [hon, hoL, subview_origin]; simp [PatchView.box]
    have e4 : ((flux.subview (next.box.grow d.castSucc (-1) 1)).sliceLast c).mds.addr (List.ofFn fun e => i e - (next.sliceLast c).origin e) =
        flux.addr (shift (Fin.snoc i (next.origin (Fin.last n) + c)) d.castSucc 1) := by
      rw [addr_local, sliceLast_addr _ (by rw [subview_str _ hv.wf.2.2.2]; exact hv.wf.2.2.2) (hst hR), subview_addr _ hv.wf.2.2.2]
      congr 1
      funext e
      refine Fin.lastCases ?_ (fun e => ?_) e
      · simp [subview_origin, PatchView.box, IndexBox.grow, shift, (Fin.castSucc_lt_last d).ne']
      · by_cases he : e = d
        · subst he
          simp only [Fin.snoc_castSucc, hon, hoR, subview_origin]; simp [PatchView.box, IndexBox.grow, shift]; ring
        · have : e.castSucc ≠ d.castSucc := fun h => he (Fin.castSucc_injective _ h)
          simp only [Fin.snoc_castSucc, hon, hoR, subview_origin]; simp [PatchView.box, IndexBox.grow, shift, this]
    simp only [Function.comp_def, tupleAt, List.map_cons, List.map_nil, tupleOp, updateOp, List.drop_succ_cons, List.drop_zero,
      List.take_succ_cons, List.take_zero, e1, e2, e3, e4]

/-- **C16 (update).** For every vector width, every number of space dimensions (1, 2 or 3), direction, strides, step size and content of the memory the vectorised
conservative update leaves exactly the same memory as the sequential one. -/
theorem updateSimd_eq [Field K] {n : Nat} (hn : n = 1 ∨ n = 2 ∨ n = 3) (next prev flux : PatchView (n + 1)) (d : Fin n)
    (hv : UpdateViews next prev flux) (hna : UpdateNoAlias next prev flux d) (fuel w : Nat) (hw : 0 < w)
    (hf : next.mds.ext.getD 1 0 < fuel) (dt dx : K) (m : Mem K) :
    updateSimd fuel w hw next prev flux dt dx d m = some (updateSeq next prev flux dt dx d m) := by
  obtain ⟨cs, h1, h2⟩ := foldlM_chunks (consKernel (dt / dx)) (fun m (comp : Nat) =>
    (updateRows fuel next prev flux d comp).map fun rows => rows.foldl (updateRowFn w hw (dt / dx)) m)
    (fun comp : Nat => ((forEachIndex (⟨Fin.init next.box.lower, Fin.init next.box.upper⟩ : IndexBox n)).map
        fun i => (Fin.snoc i (next.origin (Fin.last n) + (comp : Int)) : Index (n + 1))).map (updateOp next prev flux d))
    (List.range (next.mds.ext.getD n 0)) (fun c _ m => by
      obtain ⟨rows, hr, hne, ht⟩ := updateRows_tuples hn next prev flux d hv fuel hf c
      obtain ⟨cs, h3, h4⟩ := fluxRows_chunks (consKernel (dt / dx)) w hw 1 rows m
      refine ⟨cs, ?_, h4.trans ht⟩
      rw [hr, Option.map_some, ← h3]
      congr 1
      have : ∀ (l : List (List RowRef)) (m : Mem K), (∀ row ∈ l, row ≠ []) → l.foldl (updateRowFn w hw (dt / dx)) m =
          l.foldl (fluxRowFn (consKernel (dt / dx)) w hw 1) m := by
        intro l
        induction l with
        | nil => intros; rfl
        | cons r l ih =>
          intro m h
          rw [List.foldl_cons, List.foldl_cons, updateRowFn_eq _ _ _ _ _ (h r (by simp)), ih _ fun x hx => h x (by simp [hx])]
      exact this rows m hne) m
  rw [updateSimd, h1, updateSeq_ops]
  have hflat : cs.flatten = (forEachIndex next.box).map (updateOp next prev flux d) := by
    rw [h2]
    have : forEachIndex next.box = (List.range (next.mds.ext.getD n 0)).flatMap fun comp : Nat =>
        (forEachIndex (⟨Fin.init next.box.lower, Fin.init next.box.upper⟩ : IndexBox n)).map
          fun i => (Fin.snoc i (next.origin (Fin.last n) + (comp : Int)) : Index (n + 1)) := by
      rw [forEachIndex]
      have hu : next.box.upper (Fin.last n) = next.box.lower (Fin.last n) + ((next.mds.ext.getD n 0 : Nat) : Int) := by
        simp [PatchView.box]
      rw [hu, loopRange_zero, List.flatMap_map]
      rfl
    rw [this, List.map_flatMap]
  congr 1
  refine chunks_eq _ _ _ _ (by rw [hflat]; exact update_noAlias hna) ?_
  rw [hflat, flatten_singletons]

/-! ### Flux sweeps -/

/-- The operation of one face. -/
def fluxOp {n : Nat} (W : Nat) (fluxes states : List (PatchView n)) (d : Fin n) (i : Index n) : CellOp :=
  ⟨(List.range (2 * W)).flatMap fun k : Nat => states.map fun v => v.addr (shift i d ((k : Int) - W)), fluxes.map fun v => v.addr i⟩

theorem fluxSeq_ops {n : Nat} (F : List K → List K) (W : Nat) (flux : PatchView n) (fluxes states : List (PatchView n)) (d : Fin n) (m : Mem K) :
    fluxSeq F W flux fluxes states d m =
      (((forEachIndex flux.box).map (fluxOp W (flux :: fluxes) states d)).map fun o => [o]).foldl (runLanes F) m := by
  rw [← seq_chunks, List.foldl_map]
  have : ∀ i : Index n, fluxOp W (flux :: fluxes) states d i =
      ⟨(List.range (2 * W)).flatMap fun k : Nat => states.map fun v => v.addr (shift (shift i d (-(W : Int))) d (k : Int)),
        (flux :: fluxes).map fun v => v.addr i⟩ := by
    intro i
    simp only [fluxOp, (shift_spec i d _).2.2.1, neg_add_eq_sub]
  simp only [this]
  rfl

theorem flux_noAlias {n : Nat} {W : Nat} {fluxes states : List (PatchView n)} {box : IndexBox n} {d : Fin n}
    (h : FluxNoAlias W fluxes states box d) : NoAlias ((forEachIndex box).map (fluxOp W fluxes states d)) := by
  have hs := forEachIndex_spec box
  refine ⟨?_, ?_⟩
  · rw [List.flatMap_map, List.nodup_flatMap]
    constructor
    · intro i hi
      have hi := (hs.1 i).1 hi
      rw [fluxOp, List.nodup_iff_injective_getElem]
      intro a b hab
      have ha := a.isLt
      have hb := b.isLt
      simp only [List.length_map] at ha hb
      simp only [List.getElem_map] at hab
      have := h.inj i hi i hi a b fluxes[a] fluxes[b] (List.getElem?_eq_getElem ha) (List.getElem?_eq_getElem hb) hab
      exact Fin.ext this.2
    · refine hs.2.2.imp_of_mem ?_
      intro i j hi hj hij
      rw [Function.onFun, List.disjoint_left]
      intro x hx hy
      simp only [fluxOp, List.mem_map] at hx hy
      obtain ⟨u, hu, rfl⟩ := hx
      obtain ⟨v, hv, hvx⟩ := hy
      obtain ⟨a, ha, rfl⟩ := List.mem_iff_getElem.1 hu
      obtain ⟨b, hb, rfl⟩ := List.mem_iff_getElem.1 hv
      exact hij (h.inj i ((hs.1 i).1 hi) j ((hs.1 j).1 hj) a b fluxes[a] fluxes[b] (List.getElem?_eq_getElem ha)
        (List.getElem?_eq_getElem hb) hvx.symm).1
  · intro a ha b hb x hx hy
    obtain ⟨i, hi, rfl⟩ := List.mem_map.1 ha
    obtain ⟨j, hj, rfl⟩ := List.mem_map.1 hb
    simp only [fluxOp, List.mem_map, List.mem_flatMap, List.mem_range] at hx hy
    obtain ⟨u, hu, rfl⟩ := hx
    obtain ⟨k, hk, v, hv, hvx⟩ := hy
    exact absurd hvx.symm (h.states i ((hs.1 i).1 hi) j ((hs.1 j).1 hj) u hu v hv k hk)

theorem writeList_map (m : Mem K) (ds : List Int) (xs : List K) (hn : ds.Nodup) (hl : xs.length = ds.length) : ds.map (writeList m ds xs) = xs := by
  induction ds generalizing m xs with
  | nil => simpa using hl
  | cons a ds ih =>
    cases xs with
    | nil => simp at hl
    | cons x xs =>
      rw [List.nodup_cons] at hn
      simp only [List.map_cons, writeList]
      rw [writeList_off _ _ _ _ hn.1, ih _ _ hn.2 (by simpa using hl)]
      simp

/-- **C16 (meaning of the flux sweep).** The sequential flux sweep computes at every face the method's flux for the cells around it. -/
theorem fluxSeq_spec {n : Nat} (F : List K → List K) (W : Nat) (flux : PatchView n) (fluxes states : List (PatchView n)) (d : Fin n) (m : Mem K)
    (h : FluxNoAlias W (flux :: fluxes) states flux.box d) (hF : ∀ l, (F l).length = fluxes.length + 1) :
    IsFluxSweep F W (flux :: fluxes) states flux.box d m (fluxSeq F W flux fluxes states d m) := by
  have hs := forEachIndex_spec flux.box
  have hna := flux_noAlias h
  have := chunks_spec F (((forEachIndex flux.box).map (fluxOp W (flux :: fluxes) states d)).map fun o => [o]) m
    (by rw [flatten_singletons]; exact hna)
  rw [flatten_singletons, ← fluxSeq_ops] at this
  constructor
  · intro i hi
    have hmem : fluxOp W (flux :: fluxes) states d i ∈ (forEachIndex flux.box).map (fluxOp W (flux :: fluxes) states d) :=
      List.mem_map.2 ⟨i, (hs.1 i).2 hi, rfl⟩
    have hnd : (fluxOp W (flux :: fluxes) states d i).dsts.Nodup := by
      have := hna.nodup
      rw [List.nodup_flatMap] at this
      exact this.1 _ hmem
    have h1 := writeList_map m (fluxOp W (flux :: fluxes) states d i).dsts (F ((fluxOp W (flux :: fluxes) states d i).srcs.map m)) hnd
      (by rw [hF]; simp [fluxOp])
    have h2 : (flux :: fluxes).map (fun v => fluxSeq F W flux fluxes states d m (v.addr i)) =
        (fluxOp W (flux :: fluxes) states d i).dsts.map (writeList m (fluxOp W (flux :: fluxes) states d i).dsts
          (F ((fluxOp W (flux :: fluxes) states d i).srcs.map m))) := by
      show _ = List.map _ (List.map _ _)
      rw [List.map_map]
      refine List.map_congr_left fun v hv => ?_
      exact this.1 _ hmem _ (List.mem_map.2 ⟨v, hv, rfl⟩)
    rw [h2, h1]
    simp only [fluxOp, List.map_flatMap, List.map_map, Function.comp_def]
  · intro a ha
    refine this.2 a fun hx => ?_
    obtain ⟨o, ho, hx⟩ := List.mem_flatMap.1 hx
    obtain ⟨i, hi, rfl⟩ := List.mem_map.1 ho
    obtain ⟨v, hv, rfl⟩ := List.mem_map.1 hx
    exact ha i ((hs.1 i).1 hi) v hv rfl

/-- The rows handed out for a flux sweep are the operations of its faces. -/
theorem fluxRows_ops {n : Nat} (hn : n = 1 ∨ n = 2 ∨ n = 3) (W : Nat) (flux : PatchView n) (fluxes states : List (PatchView n))
    (d : Fin n) (hv : FluxViews flux fluxes states) (fuel : Nat) (hf : flux.mds.ext.getD 1 0 < fuel) :
    ∃ rows, forEachRow fuel (((flux :: fluxes) ++ stencilViews W flux.box states d).map PatchView.mds) = some rows ∧
      (rowTuples rows).map (tupleOp (fluxes.length + 1)) = (forEachIndex flux.box).map (fluxOp W (flux :: fluxes) states d) ∧
      ∀ row ∈ rows, fluxes.length + 1 ≤ row.length := by
  have hst : ∀ u ∈ stencilViews W flux.box states d, ∃ v ∈ states, u.mds.str = v.mds.str := by
    intro u hu
    simp only [stencilViews, List.mem_flatMap, List.mem_map] at hu
    obtain ⟨k, -, v, hvs, rfl⟩ := hu
    have hl := hv.strides v (by simp [hvs])
    refine ⟨v, hvs, ?_⟩
    rw [subview_str _ (by rw [subview_str _ hl]; exact hl), subview_str _ hl]
  have hr : RowViews flux (fluxes ++ stencilViews W flux.box states d) := by
    refine ⟨hv.rank, ?_, ?_, hv.stride, hv.nested, hv.nonempty⟩
    · intro u hu
      rw [← List.cons_append, List.mem_append] at hu
      rcases hu with hu | hu
      · exact hv.strides u (by simp only [List.mem_append]; exact .inl hu)
      · obtain ⟨v, hvs, h⟩ := hst u hu
        rw [h]; exact hv.strides v (by simp [hvs])
    · intro u hu
      rw [← List.cons_append, List.mem_append] at hu
      rcases hu with hu | hu
      · exact hv.contiguous u (by simp only [List.mem_append]; exact .inl hu)
      · obtain ⟨v, hvs, h⟩ := hst u hu
        rw [h]; exact hv.contiguous v (by simp [hvs])
  obtain ⟨rows, h1, h2, h5⟩ := forEachRow_flat hn flux _ hr fuel hf
  have htup : ∀ i, tupleOp (fluxes.length + 1) (tupleAt flux (flux :: (fluxes ++ stencilViews W flux.box states d)) i) =
      fluxOp W (flux :: fluxes) states d i := by
    intro i
    have e1 : tupleAt flux (flux :: fluxes) i = (flux :: fluxes).map fun v => v.addr i := by
      refine List.map_congr_left fun u hu => ?_
      rw [addr_local]
      congr 1
      funext e
      have : u.origin = flux.origin := by
        rcases List.mem_cons.1 hu with rfl | hu
        · rfl
        · exact hv.same u hu
      rw [this]; ring
    have e2 : tupleAt flux (stencilViews W flux.box states d) i =
        (List.range (2 * W)).flatMap fun k : Nat => states.map fun v => v.addr (shift i d ((k : Int) - W)) := by
      simp only [tupleAt, stencilViews, List.map_flatMap, List.map_map]
      refine List.flatMap_congr fun k _ => List.map_congr_left fun v hvs => ?_
      have hl := hv.strides v (by simp [hvs])
      simp only [Function.comp_def]
      rw [addr_local, subview_addr _ (by rw [subview_str _ hl]; exact hl), subview_addr _ hl]
      congr 1
      funext e
      rw [subview_origin]
      by_cases he : e = d
      · subst he; simp [IndexBox.shrink, IndexBox.grow, PatchView.box, shift]; ring
      · simp [IndexBox.shrink, IndexBox.grow, PatchView.box, shift, he]
    have e3 : tupleAt flux (flux :: (fluxes ++ stencilViews W flux.box states d)) i =
        tupleAt flux (flux :: fluxes) i ++ tupleAt flux (stencilViews W flux.box states d) i := by
      rw [← List.cons_append, tupleAt, List.map_append]; rfl
    have hlen : ((flux :: fluxes).map fun v => v.addr i).length = fluxes.length + 1 := by simp
    rw [e3, e1, e2, tupleOp, List.drop_left' hlen, List.take_left' hlen, fluxOp]
  refine ⟨rows, by rw [List.cons_append, h1], ?_, fun row hrow => ?_⟩
  · rw [h2, List.map_map]
    exact List.map_congr_left fun i _ => htup i
  · rw [h5 row hrow, List.length_append]
    omega

/-- **C16 (fluxes).** For every vector width, stencil width, number of space dimensions (1, 2 or 3), direction, list of components, strides and
content of the memory the vectorised flux sweep leaves exactly the same memory as the sequential one. -/
theorem fluxSimd_eq {n : Nat} (hn : n = 1 ∨ n = 2 ∨ n = 3) (F : List K → List K) (W : Nat) (flux : PatchView n) (fluxes states : List (PatchView n))
    (d : Fin n) (hv : FluxViews flux fluxes states) (hna : FluxNoAlias W (flux :: fluxes) states flux.box d) (fuel w : Nat) (hw : 0 < w)
    (hf : flux.mds.ext.getD 1 0 < fuel) (m : Mem K) :
    fluxSimd F fuel w hw W flux fluxes states d m = some (fluxSeq F W flux fluxes states d m) := by
  obtain ⟨rows, h1, h2, -⟩ := fluxRows_ops hn W flux fluxes states d hv fuel hf
  obtain ⟨cs, h3, h4⟩ := fluxRows_chunks F w hw (fluxes.length + 1) rows m
  rw [fluxSimd, h1, Option.map_some, h3, fluxSeq_ops]
  have hflat : cs.flatten = (forEachIndex flux.box).map (fluxOp W (flux :: fluxes) states d) := by rw [h4, h2]
  congr 1
  refine chunks_eq _ _ _ _ (by rw [hflat]; exact flux_noAlias hna) ?_
  rw [hflat, flatten_singletons]

/-! ### Concrete cases -/

theorem addr_two (b : Int) (ex ey sx sy : Nat) (l : Layout) (o0 o1 : Int) (i : Index 2) :
    (⟨⟨l, b, [ex, ey], [sx, sy]⟩, ![o0, o1]⟩ : PatchView 2).addr i = b + (sx * (i 0 - o0) + sy * (i 1 - o1)) := by
  simp [PatchView.addr, MdSpan.addr, dot, List.ofFn_succ]

/-- The hypotheses of the update theorems are met by a 4-cell patch with two components inside larger arrays, updated in place. -/
example : let next : PatchView 2 := ⟨⟨.stride, 1, [4, 2], [1, 6]⟩, ![0, 0]⟩
    let flux : PatchView 2 := ⟨⟨.stride, 100, [5, 2], [1, 5]⟩, ![0, 0]⟩
    UpdateViews next next flux ∧ UpdateNoAlias next next flux 0 ∧ next.box.toSet.Nonempty := by
  intro next flux
  have hb : ∀ i ∈ next.box.toSet, 0 ≤ i 0 ∧ i 0 < 4 ∧ 0 ≤ i 1 ∧ i 1 < 2 := by
    intro i hi
    have h0 := hi 0
    have h1 := hi 1
    simp [next, PatchView.box] at h0 h1
    omega
  have hn : ∀ i, next.addr i = 1 + (1 * (i 0 - 0) + 6 * (i 1 - 0)) := fun i => addr_two _ _ _ _ _ _ _ _ i
  have hfl : ∀ i, flux.addr i = 100 + (1 * (i 0 - 0) + 5 * (i 1 - 0)) := fun i => addr_two _ _ _ _ _ _ _ _ i
  have hinj : ∀ i ∈ next.box.toSet, ∀ j ∈ next.box.toSet, next.addr i = next.addr j → i = j := by
    intro i hi j hj h
    have := hb i hi
    have := hb j hj
    rw [hn, hn] at h
    funext d
    fin_cases d
    · show i 0 = j 0; omega
    · show i 1 = j 1; omega
  refine ⟨⟨⟨⟨rfl, rfl⟩, ⟨rfl, rfl⟩, rfl, rfl⟩, ⟨rfl, rfl, rfl⟩, ⟨rfl, rfl, rfl⟩, by simp [next, NestedStrides], by simp [next], rfl⟩,
    ⟨hinj, ?_, hinj⟩, ![0, 0], ?_⟩
  · intro i hi j hj
    have := hb i hi
    have := hb j hj
    rw [hn, hfl, hfl]
    have h0 : (shift j (Fin.castSucc 0) 1 : Index 2) 0 = j 0 + 1 := by simp [shift]
    have h1 : (shift j (Fin.castSucc 0) 1 : Index 2) 1 = j 1 := by simp [shift]
    rw [h0, h1]
    omega
  · intro d
    fin_cases d <;> simp [next, PatchView.box]

/-- The update of that patch, sequentially and with vectors of two: the same result. -/
example : let next : PatchView 2 := ⟨⟨.stride, 1, [4, 2], [1, 6]⟩, ![0, 0]⟩
    let flux : PatchView 2 := ⟨⟨.stride, 100, [5, 2], [1, 5]⟩, ![0, 0]⟩
    let m : Mem ℚ := fun a => (a * a : Int)
    ((updateSimd 5 3 (by decide) next next flux (1/2) 1 0 m).map fun m' => [m' 0, m' 1, m' 4, m' 5, m' 10]) =
      some [0, 1 - 201/2, 16 - 207/2, 25, 100 - 217/2] := by
  decide +kernel

/-- The hypotheses of the flux theorems are met by 3 faces with stencil width one and two flux components. -/
example : let f : Int → PatchView 1 := fun b => ⟨⟨.stride, b, [3], [1]⟩, ![1]⟩
    let s : Int → PatchView 1 := fun b => ⟨⟨.stride, b, [6], [1]⟩, ![-1]⟩
    FluxViews (f 0) [f 10] [s 100, s 200] ∧ FluxNoAlias 1 [f 0, f 10] [s 100, s 200] (f 0).box 0 := by
  intro f s
  have hb : ∀ i ∈ (f 0).box.toSet, 1 ≤ i 0 ∧ i 0 < 4 := by
    intro i hi
    have h0 := hi 0
    simp [f, PatchView.box] at h0
    omega
  have hf : ∀ b i, (f b).addr i = b + (i 0 - 1) := by intro b i; simp [f, PatchView.addr, MdSpan.addr, dot]
  have hs : ∀ b i, (s b).addr i = b + (i 0 + 1) := by intro b i; simp [s, PatchView.addr, MdSpan.addr, dot]
  refine ⟨⟨rfl, by simp [f, s], by simp [f, s], rfl, by simp [f, NestedStrides], by simp [f], by simp [f]⟩, ?_, ?_⟩
  · intro i hi j hj a b u v hu hv h
    have := hb i hi
    have := hb j hj
    have key : i 0 = j 0 ∧ a = b := by
      rcases a with _ | _ | a <;> rcases b with _ | _ | b <;> simp at hu hv <;> subst hu <;> subst hv <;> rw [hf, hf] at h <;>
        constructor <;> first | rfl | omega
    refine ⟨?_, key.2⟩
    funext d
    fin_cases d
    exact key.1
  · intro i hi j hj u hu v hv k hk
    have := hb i hi
    have := hb j hj
    have hsh : (shift j 0 ((k : Int) - (1 : Nat)) : Index 1) 0 = j 0 + (k - 1) := by simp [shift]
    simp only [List.mem_cons, List.not_mem_nil, or_false] at hu hv
    rcases hu with rfl | rfl <;> rcases hv with rfl | rfl <;> rw [hf, hs, hsh] <;> omega

/-- **C16 is false for empty two-dimensional patches.** On a 4x0 patch the sequential update does nothing while the vectorised one overwrites the four elements where the
first row would be. -/
theorem updateSimd_empty : let v : PatchView 3 := ⟨⟨.stride, 0, [4, 0, 1], [1, 4, 4]⟩, ![0, 0, 0]⟩
    let flux : PatchView 3 := ⟨⟨.stride, 100, [5, 0, 1], [1, 5, 5]⟩, ![0, 0, 0]⟩
    let m : Mem ℚ := fun a => (a * a : Int)
    updateSeq v v flux 1 1 0 m = m ∧
    ((updateSimd 5 8 (by decide) v v flux 1 1 0 m).map fun m' => [m' 0, m' 1, m' 2, m' 3, m' 4]) = some [-201, -202, -201, -198, 16] := by
  constructor
  · rfl
  · decide +kernel

end Fub
