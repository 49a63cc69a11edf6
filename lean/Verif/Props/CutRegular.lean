import Verif.Model.CutRegular
import Verif.Props.PatchIntegrator

/-!
C183: the regular fluxes of a cut-cell sweep.
-/

namespace Fub
variable {K : Type}

/-! ## Specification -/

/-- The addresses a cut-cell flux at the face `i` is computed from: its face fraction, then volume fractions, states and gradients of the `W` cells on each side, from left
to right. -/
def cutReads {n : ℕ} (W : ℕ) (faces volumes : PatchView n) (states grads : List (PatchView n)) (d : Fin n) (i : Index n) : List ℤ :=
  faces.addr i :: (((List.range (2 * W)).map fun k : ℕ => volumes.addr (shift i d ((k : ℤ) - W))) ++
    (((List.range (2 * W)).flatMap fun k : ℕ => states.map fun v => v.addr (shift i d ((k : ℤ) - W))) ++
      ((List.range (2 * W)).flatMap fun k : ℕ => grads.map fun v => v.addr (shift i d ((k : ℤ) - W)))))

/-- What the sweep should do to memory: at every face the flux components are the method's result for the data around this face; everything else is untouched. -/
structure IsCutSweep {n : ℕ} (F : List K → List K) (W : ℕ) (fluxes : List (PatchView n)) (faces volumes : PatchView n) (states grads : List (PatchView n))
    (box : IndexBox n) (d : Fin n) (m m' : Mem K) : Prop where
  faces : ∀ i ∈ box.toSet, fluxes.map (fun v => m' (v.addr i)) = F ((cutReads W faces volumes states grads d i).map m)
  others : ∀ a, (∀ i ∈ box.toSet, ∀ v ∈ fluxes, a ≠ v.addr i) → m' a = m a

/-- The memory regions do not interfere: every flux component of every face has its own address, and none of them is read. -/
structure CutNoAlias {n : ℕ} (W : ℕ) (fluxes : List (PatchView n)) (faces volumes : PatchView n) (states grads : List (PatchView n))
    (box : IndexBox n) (d : Fin n) : Prop where
  inj : ∀ i ∈ box.toSet, ∀ j ∈ box.toSet, ∀ (a b : ℕ) (u v : PatchView n), fluxes[a]? = some u → fluxes[b]? = some v →
    u.addr i = v.addr j → i = j ∧ a = b
  reads : ∀ i ∈ box.toSet, ∀ j ∈ box.toSet, ∀ u ∈ fluxes, u.addr i ∉ cutReads W faces volumes states grads d j

/-! ## The sweep -/

/-- The operation of one face. -/
def cutOp {n : ℕ} (W : ℕ) (fluxes : List (PatchView n)) (faces volumes : PatchView n) (states grads : List (PatchView n)) (d : Fin n) (i : Index n) : CellOp :=
  ⟨cutReads W faces volumes states grads d i, fluxes.map fun v => v.addr i⟩

theorem cut_noAlias {n : ℕ} {W : ℕ} {fluxes : List (PatchView n)} {faces volumes : PatchView n} {states grads : List (PatchView n)} {box : IndexBox n} {d : Fin n}
    (h : CutNoAlias W fluxes faces volumes states grads box d) : NoAlias ((forEachIndex box).map (cutOp W fluxes faces volumes states grads d)) := by
  have hs := forEachIndex_spec box
  refine ⟨?_, ?_⟩
  · rw [List.flatMap_map, List.nodup_flatMap]
    constructor
    · intro i hi
      have hi := (hs.1 i).1 hi
      rw [cutOp, List.nodup_iff_injective_getElem]
      intro a b hab
      have ha := a.isLt
      have hb := b.isLt
      simp only [List.length_map] at ha hb
      simp only [List.getElem_map] at hab
      have := h.inj i hi i hi a b fluxes[a] fluxes[b] (List.getElem?_eq_getElem ha) (List.getElem?_eq_getElem hb) hab
      exact Fin.ext this.2
    · refine hs.2.2.imp_of_mem ?_
      intro i j hi hj hij
      rw [Function.onFun, List.disjoint_left]
      intro x hx hy
      simp only [cutOp, List.mem_map] at hx hy
      obtain ⟨u, hu, rfl⟩ := hx
      obtain ⟨v, hv, hvx⟩ := hy
      obtain ⟨a, ha, rfl⟩ := List.mem_iff_getElem.1 hu
      obtain ⟨b, hb, rfl⟩ := List.mem_iff_getElem.1 hv
      exact hij (h.inj i ((hs.1 i).1 hi) j ((hs.1 j).1 hj) a b fluxes[a] fluxes[b] (List.getElem?_eq_getElem ha)
        (List.getElem?_eq_getElem hb) hvx.symm).1
  · intro a ha b hb x hx hy
    obtain ⟨i, hi, rfl⟩ := List.mem_map.1 ha
    obtain ⟨j, hj, rfl⟩ := List.mem_map.1 hb
    obtain ⟨u, hu, rfl⟩ := List.mem_map.1 hx
    exact absurd hy (h.reads i ((hs.1 i).1 hi) j ((hs.1 j).1 hj) u hu)

theorem stencil_tuple {n : ℕ} (W : ℕ) (flux : PatchView n) (states : List (PatchView n)) (d : Fin n) (hl : ∀ v ∈ states, v.mds.str.length = n) (i : Index n) :
    tupleAt flux (stencilViews W flux.box states d) i =
      (List.range (2 * W)).flatMap fun k : ℕ => states.map fun v => v.addr (shift i d ((k : ℤ) - W)) := by
  simp only [tupleAt, stencilViews, List.map_flatMap, List.map_map]
  refine List.flatMap_congr fun k _ => List.map_congr_left fun v hvs => ?_
  have hl := hl v hvs
  simp only [Function.comp_def]
  rw [addr_local, subview_addr _ (by rw [subview_str _ hl]; exact hl), subview_addr _ hl]
  congr 1
  funext e
  rw [subview_origin]
  by_cases he : e = d
  · subst he; simp [IndexBox.shrink, IndexBox.grow, PatchView.box, shift]; ring
  · simp [IndexBox.shrink, IndexBox.grow, PatchView.box, shift, he]

theorem stencil_strides {n : ℕ} (W : ℕ) (box : IndexBox n) (states : List (PatchView n)) (d : Fin n) (hl : ∀ v ∈ states, v.mds.str.length = n) (u : PatchView n)
    (hu : u ∈ stencilViews W box states d) : ∃ v ∈ states, u.mds.str = v.mds.str := by
  simp only [stencilViews, List.mem_flatMap, List.mem_map] at hu
  obtain ⟨k, -, v, hvs, rfl⟩ := hu
  have hl := hl v hvs
  refine ⟨v, hvs, ?_⟩
  rw [subview_str _ (by rw [subview_str _ hl]; exact hl), subview_str _ hl]

/-- The rows handed out for a cut-cell sweep are the operations of its faces. -/
theorem cutRows_ops {n : ℕ} (hn : n = 1 ∨ n = 2 ∨ n = 3) (W : ℕ) (flux : PatchView n) (fluxes : List (PatchView n)) (faces volumes : PatchView n)
    (states grads : List (PatchView n)) (d : Fin n) (hv : FluxViews flux fluxes (faces :: volumes :: (states ++ grads))) (fuel : ℕ)
    (hf : flux.mds.ext.getD 1 0 < fuel) :
    ∃ rows, forEachRow fuel (((flux :: fluxes) ++ cutSources W flux.box faces volumes states grads d).map PatchView.mds) = some rows ∧
      (rowTuples rows).map (tupleOp (fluxes.length + 1)) = (forEachIndex flux.box).map (cutOp W (flux :: fluxes) faces volumes states grads d) ∧
      ∀ row ∈ rows, fluxes.length + 1 ≤ row.length := by
  have hlv : ∀ v ∈ [volumes], v.mds.str.length = n := fun v h => hv.strides v (by simp at h; simp [h])
  have hls : ∀ v ∈ states, v.mds.str.length = n := fun v h => hv.strides v (by simp [h])
  have hlg : ∀ v ∈ grads, v.mds.str.length = n := fun v h => hv.strides v (by simp [h])
  have hlf : faces.mds.str.length = n := hv.strides faces (by simp)
  have hst : ∀ u ∈ cutSources W flux.box faces volumes states grads d, ∃ v ∈ faces :: volumes :: (states ++ grads), u.mds.str = v.mds.str := by
    intro u hu
    simp only [cutSources, List.mem_cons, List.mem_append] at hu
    rcases hu with rfl | hu | hu | hu
    · exact ⟨faces, by simp, subview_str _ hlf _⟩
    · obtain ⟨v, h1, h2⟩ := stencil_strides W _ _ d hlv u hu
      exact ⟨v, by simp at h1; simp [h1], h2⟩
    · obtain ⟨v, h1, h2⟩ := stencil_strides W _ _ d hls u hu
      exact ⟨v, by simp [h1], h2⟩
    · obtain ⟨v, h1, h2⟩ := stencil_strides W _ _ d hlg u hu
      exact ⟨v, by simp [h1], h2⟩
  have hr : RowViews flux (fluxes ++ cutSources W flux.box faces volumes states grads d) := by
    refine ⟨hv.rank, ?_, ?_, hv.stride, hv.nested, hv.nonempty⟩
    · intro u hu
      rw [← List.cons_append, List.mem_append] at hu
      rcases hu with hu | hu
      · exact hv.strides u (by simp only [List.mem_append]; exact .inl hu)
      · obtain ⟨v, hvs, h⟩ := hst u hu
        rw [h]; exact hv.strides v (by simp only [List.mem_append]; exact .inr hvs)
    · intro u hu
      rw [← List.cons_append, List.mem_append] at hu
      rcases hu with hu | hu
      · exact hv.contiguous u (by simp only [List.mem_append]; exact .inl hu)
      · obtain ⟨v, hvs, h⟩ := hst u hu
        rw [h]; exact hv.contiguous v (by simp only [List.mem_append]; exact .inr hvs)
  obtain ⟨rows, h1, h2, h5⟩ := forEachRow_flat hn flux _ hr fuel hf
  have htup : ∀ i, tupleOp (fluxes.length + 1) (tupleAt flux (flux :: (fluxes ++ cutSources W flux.box faces volumes states grads d)) i) =
      cutOp W (flux :: fluxes) faces volumes states grads d i := by
    intro i
    have e1 : tupleAt flux (flux :: fluxes) i = (flux :: fluxes).map fun v => v.addr i := by
      refine List.map_congr_left fun u hu => ?_
      rw [addr_local]
      congr 1
      funext e
      have : u.origin = flux.origin := by
        rcases List.mem_cons.1 hu with rfl | hu
        · rfl
        · exact hv.same u hu
      rw [this]; ring
    have e0 : (faces.subview flux.box).mds.addr (List.ofFn fun d => i d - flux.origin d) = faces.addr i := by
      rw [addr_local, subview_addr _ hlf]
      congr 1
      funext e
      rw [subview_origin]
      simp [PatchView.box]
    have e2 : tupleAt flux (cutSources W flux.box faces volumes states grads d) i = cutReads W faces volumes states grads d i := by
      have a1 := stencil_tuple W flux [volumes] d hlv i
      have a2 := stencil_tuple W flux states d hls i
      have a3 := stencil_tuple W flux grads d hlg i
      unfold tupleAt at a1 a2 a3 ⊢
      simp only [cutSources, List.map_cons, List.map_append, e0, a1, a2, a3, cutReads, List.map_nil]
      congr 2
      induction List.range (2 * W) with
      | nil => rfl
      | cons x l ih => simp [ih]
    have e3 : tupleAt flux (flux :: (fluxes ++ cutSources W flux.box faces volumes states grads d)) i =
        tupleAt flux (flux :: fluxes) i ++ tupleAt flux (cutSources W flux.box faces volumes states grads d) i := by
      rw [← List.cons_append, tupleAt, List.map_append]; rfl
    have hlen : ((flux :: fluxes).map fun v => v.addr i).length = fluxes.length + 1 := by simp
    rw [e3, e1, e2, tupleOp, List.drop_left' hlen, List.take_left' hlen, cutOp]
  refine ⟨rows, by rw [List.cons_append, h1], ?_, fun row hrow => ?_⟩
  · rw [h2, List.map_map]
    exact List.map_congr_left fun i _ => htup i
  · rw [h5 row hrow, List.length_append]
    omega

/-- **C183 (sweep).** For every vector width, stencil width, number of space dimensions (1, 2 or 3), direction, list of components, strides and content of
the memory, the sweep computes at every face the method's flux for the face fraction, volume fractions, states and gradients of that face, and changes nothing else. -/
theorem cutRegularFluxes_spec {n : ℕ} (hn : n = 1 ∨ n = 2 ∨ n = 3) (F : List K → List K) (W : ℕ) (flux : PatchView n) (fluxes : List (PatchView n))
    (faces volumes : PatchView n) (states grads : List (PatchView n)) (d : Fin n) (hv : FluxViews flux fluxes (faces :: volumes :: (states ++ grads)))
    (hna : CutNoAlias W (flux :: fluxes) faces volumes states grads flux.box d) (hF : ∀ l, (F l).length = fluxes.length + 1) (fuel w : ℕ) (hw : 0 < w)
    (hf : flux.mds.ext.getD 1 0 < fuel) (m : Mem K) :
    ∃ m', cutRegularFluxes F fuel w hw W flux fluxes faces volumes states grads d m = some m' ∧
      IsCutSweep F W (flux :: fluxes) faces volumes states grads flux.box d m m' := by
  obtain ⟨rows, h1, h2, -⟩ := cutRows_ops hn W flux fluxes faces volumes states grads d hv fuel hf
  obtain ⟨cs, h3, h4⟩ := fluxRows_chunks F w hw (fluxes.length + 1) rows m
  refine ⟨cs.foldl (runLanes F) m, by rw [cutRegularFluxes, h1, Option.map_some, h3], ?_⟩
  have hflat : cs.flatten = (forEachIndex flux.box).map (cutOp W (flux :: fluxes) faces volumes states grads d) := by rw [h4, h2]
  have hal := cut_noAlias hna
  have hs := forEachIndex_spec flux.box
  have := chunks_spec F cs m (by rw [hflat]; exact hal)
  rw [hflat] at this
  constructor
  · intro i hi
    have hmem : cutOp W (flux :: fluxes) faces volumes states grads d i ∈
        (forEachIndex flux.box).map (cutOp W (flux :: fluxes) faces volumes states grads d) := List.mem_map.2 ⟨i, (hs.1 i).2 hi, rfl⟩
    have hnd : (cutOp W (flux :: fluxes) faces volumes states grads d i).dsts.Nodup := by
      have := hal.nodup
      rw [List.nodup_flatMap] at this
      exact this.1 _ hmem
    have h1 := writeList_map m (cutOp W (flux :: fluxes) faces volumes states grads d i).dsts
      (F ((cutOp W (flux :: fluxes) faces volumes states grads d i).srcs.map m)) hnd (by rw [hF]; simp [cutOp])
    have h2 : (flux :: fluxes).map (fun v => cs.foldl (runLanes F) m (v.addr i)) =
        (cutOp W (flux :: fluxes) faces volumes states grads d i).dsts.map (writeList m (cutOp W (flux :: fluxes) faces volumes states grads d i).dsts
          (F ((cutOp W (flux :: fluxes) faces volumes states grads d i).srcs.map m))) := by
      show _ = List.map _ (List.map _ _)
      rw [List.map_map]
      refine List.map_congr_left fun v hv => ?_
      exact this.1 _ hmem _ (List.mem_map.2 ⟨v, hv, rfl⟩)
    rw [h2, h1]
    rfl
  · intro a ha
    refine this.2 a fun hx => ?_
    obtain ⟨o, ho, hx⟩ := List.mem_flatMap.1 hx
    obtain ⟨i, hi, rfl⟩ := List.mem_map.1 ho
    obtain ⟨v, hv, rfl⟩ := List.mem_map.1 hx
    exact ha i ((hs.1 i).1 hi) v hv rfl

/-! ## Covered cells -/

section Covered
variable [Zero K] [LT K] [DecidableLT K]

/-- **C183 (MUSCL-Hancock).** At a face between two cells with gas the masked method reads the outer cells of the stencil only if they contain gas. -/
theorem muscl2Masked_covered {S G R : Type} [Zero G] (grad : S → S → S → G) (rec : S → G → Bool → S) (base : K → S → S → R) (β : K) (α : Fin 4 → K)
    (q q' : Fin 4 → S) (h : ∀ k, 0 < α k → q k = q' k) (h1 : 0 < α 1) (h2 : 0 < α 2) :
    muscl2Masked grad rec base β α q = muscl2Masked grad rec base β α q' := by
  unfold muscl2Masked
  have e1 := h 1 h1
  have e2 := h 2 h2
  by_cases a0 : 0 < α 0 <;> by_cases a3 : 0 < α 3 <;> simp [a0, a3, h1, h2, e1, e2, h]

/-- With gas in all four cells it is the method without mask, and with a covered outer cell the side of this cell is reconstructed without slope. -/
theorem muscl2Masked_sides {S G R : Type} [Zero G] (grad : S → S → S → G) (rec : S → G → Bool → S) (base : K → S → S → R) (β : K) (α : Fin 4 → K)
    (q : Fin 4 → S) (h1 : 0 < α 1) (h2 : 0 < α 2) :
    ∃ gL gR, muscl2Masked grad rec base β α q = base β (rec (q 1) gL true) (rec (q 2) gR false) ∧
      (0 < α 0 → gL = grad (q 0) (q 1) (q 2)) ∧ (¬ 0 < α 0 → gL = 0) ∧ (0 < α 3 → gR = grad (q 1) (q 2) (q 3)) ∧ (¬ 0 < α 3 → gR = 0) := by
  refine ⟨if 0 < α 0 ∧ 0 < α 1 ∧ 0 < α 2 then grad (q 0) (q 1) (q 2) else 0, if 0 < α 1 ∧ 0 < α 2 ∧ 0 < α 3 then grad (q 1) (q 2) (q 3) else 0, rfl, ?_⟩
  by_cases a0 : 0 < α 0 <;> by_cases a3 : 0 < α 3 <;> simp [a0, a3, h1, h2]

/-- The lane reads the numbers of the sweep as what they are. -/
theorem muscl2Lane_reads {n : ℕ} {G : Type} [Zero G] (grad : List K → List K → List K → G) (rec : List K → G → Bool → List K)
    (base : K → List K → List K → List K) (faces volumes : PatchView n) (states : List (PatchView n)) (d : Fin n) (i : Index n) (m : Mem K) :
    muscl2Lane states.length grad rec base ((cutReads 2 faces volumes states [] d i).map m) =
      muscl2Masked grad rec base (m (faces.addr i)) (fun k => m (volumes.addr (shift i d ((k : ℤ) - 2))))
        (fun k => states.map fun v => m (v.addr (shift i d ((k : ℤ) - 2)))) := by
  unfold muscl2Lane
  have hr : List.range (2 * 2) = [0, 1, 2, 3] := by decide
  simp only [cutReads, hr, List.map_cons, List.map_nil, List.flatMap_cons, List.flatMap_nil, List.append_nil, List.map_append, List.map_map, List.cons_append, List.nil_append]
  generalize hs : (fun k : ℕ => states.map (m ∘ fun v => v.addr (shift i d ((k : ℤ) - (2 : ℕ))))) = s
  have hl : ∀ k, (s k).length = states.length := by intro k; rw [← hs]; simp
  have e : ∀ k : ℕ, states.map (m ∘ fun v => v.addr (shift i d ((k : ℤ) - (2 : ℕ)))) = s k := fun k => by rw [← hs]
  rw [e 0, e 1, e 2, e 3]
  congr 1
  · funext k; fin_cases k <;> rfl
  · funext k
    have ek : (states.map fun v => m (v.addr (shift i d (((k : ℕ) : ℤ) - 2)))) = s k := by rw [← hs]; rfl
    rw [ek]
    have h0 := hl 0
    have h1 := hl 1
    have h2 := hl 2
    have h3 := hl 3
    generalize states.length = c at *
    fin_cases k
    · simp [List.take_append_of_le_length, h0]
    · simp only [Fin.mk_one, Fin.coe_ofNat_eq_mod, Nat.one_mod, one_mul, Nat.add_comm 5 c, List.drop_succ_cons, List.nil_append, Fin.isValue]
      rw [List.drop_left' h0, List.take_left' h1]
    · simp only [Fin.reduceFinMk, Fin.coe_ofNat_eq_mod, Nat.reduceMod, Nat.add_comm 5 (2 * c), List.drop_succ_cons, Fin.isValue]
      rw [two_mul, ← List.drop_drop, List.drop_left' h0, List.drop_left' h1, List.take_left' h2]
    · simp only [Fin.reduceFinMk, Fin.coe_ofNat_eq_mod, Nat.reduceMod, Nat.add_comm 5 (3 * c), List.drop_succ_cons, Fin.isValue]
      rw [show 3 * c = c + (c + c) by ring, ← List.drop_drop, List.drop_left' h0, ← List.drop_drop, List.drop_left' h1, List.drop_left' h2, List.take_of_length_le h3.le]

/-- **C183.** The states stored in covered cells have no influence on the fluxes through open faces: two sweeps over memories that agree in the geometry and in all cells with
gas leave the same fluxes there, whatever the covered cells contain. The geometry has gas on both sides of every open face. -/
theorem cut_fluxes_ignore_covered {n : ℕ} (hn : n = 1 ∨ n = 2 ∨ n = 3) {G : Type} [Zero G] (grad : List K → List K → List K → G)
    (rec : List K → G → Bool → List K) (base : K → List K → List K → List K) (flux : PatchView n) (fluxes : List (PatchView n)) (faces volumes : PatchView n)
    (states : List (PatchView n)) (d : Fin n) (hv : FluxViews flux fluxes (faces :: volumes :: (states ++ [])))
    (hna : CutNoAlias 2 (flux :: fluxes) faces volumes states [] flux.box d) (hb : ∀ β x y, (base β x y).length = fluxes.length + 1) (fuel w : ℕ) (hw : 0 < w)
    (hf : flux.mds.ext.getD 1 0 < fuel) (m₁ m₂ : Mem K)
    (hface : ∀ i ∈ flux.box.toSet, m₁ (faces.addr i) = m₂ (faces.addr i))
    (hvol : ∀ i ∈ flux.box.toSet, ∀ k : ℤ, -2 ≤ k → k < 2 → m₁ (volumes.addr (shift i d k)) = m₂ (volumes.addr (shift i d k)))
    (hgas : ∀ i ∈ flux.box.toSet, ∀ k : ℤ, -2 ≤ k → k < 2 → 0 < m₁ (volumes.addr (shift i d k)) →
      ∀ v ∈ states, m₁ (v.addr (shift i d k)) = m₂ (v.addr (shift i d k)))
    (hgeom : ∀ i ∈ flux.box.toSet, 0 < m₁ (faces.addr i) → 0 < m₁ (volumes.addr (shift i d (-1))) ∧ 0 < m₁ (volumes.addr (shift i d 0))) :
    ∃ r₁ r₂, cutRegularFluxes (muscl2Lane states.length grad rec base) fuel w hw 2 flux fluxes faces volumes states [] d m₁ = some r₁ ∧
      cutRegularFluxes (muscl2Lane states.length grad rec base) fuel w hw 2 flux fluxes faces volumes states [] d m₂ = some r₂ ∧
      ∀ i ∈ flux.box.toSet, 0 < m₁ (faces.addr i) → ∀ v ∈ flux :: fluxes, r₁ (v.addr i) = r₂ (v.addr i) := by
  have hF : ∀ l, (muscl2Lane states.length grad rec base l).length = fluxes.length + 1 := fun l => hb _ _ _
  obtain ⟨r₁, h1, s1⟩ := cutRegularFluxes_spec hn _ 2 flux fluxes faces volumes states [] d hv hna hF fuel w hw hf m₁
  obtain ⟨r₂, h2, s2⟩ := cutRegularFluxes_spec hn _ 2 flux fluxes faces volumes states [] d hv hna hF fuel w hw hf m₂
  refine ⟨r₁, r₂, h1, h2, fun i hi ho => ?_⟩
  have f1 := s1.faces i hi
  have f2 := s2.faces i hi
  rw [muscl2Lane_reads] at f1 f2
  have hα : (fun k : Fin 4 => m₂ (volumes.addr (shift i d (((k : ℕ) : ℤ) - 2)))) = fun k : Fin 4 => m₁ (volumes.addr (shift i d (((k : ℕ) : ℤ) - 2))) := by
    funext k
    exact (hvol i hi _ (by omega) (by omega)).symm
  rw [← hface i hi, hα] at f2
  have g := hgeom i hi ho
  have e1 : ((((1 : Fin 4) : ℕ) : ℤ) - 2) = -1 := by decide
  have e2 : ((((2 : Fin 4) : ℕ) : ℤ) - 2) = 0 := by decide
  have key := muscl2Masked_covered grad rec base (m₁ (faces.addr i)) (fun k : Fin 4 => m₁ (volumes.addr (shift i d (((k : ℕ) : ℤ) - 2))))
    (fun k => states.map fun v => m₁ (v.addr (shift i d (((k : ℕ) : ℤ) - 2)))) (fun k => states.map fun v => m₂ (v.addr (shift i d (((k : ℕ) : ℤ) - 2))))
    (fun k hk => List.map_congr_left fun v hv => hgas i hi _ (by omega) (by omega) hk v hv) (by show 0 < m₁ (volumes.addr (shift i d ((((1 : Fin 4) : ℕ) : ℤ) - 2))); rw [e1]; exact g.1)
    (by show 0 < m₁ (volumes.addr (shift i d ((((2 : Fin 4) : ℕ) : ℤ) - 2))); rw [e2]; exact g.2)
  rw [key, ← f2] at f1
  exact List.map_inj_left.1 f1

end Covered

/-! ## Example -/

/-- Three faces between the cells 0, ..., 5, of which the cell 5 is covered: the face fractions at 100, the volume fractions at 200, one state component at 300. The
hypotheses of the sweep theorems are met. -/
example : let f : PatchView 1 := ⟨⟨.stride, 0, [3], [1]⟩, ![2]⟩
    let β : PatchView 1 := ⟨⟨.stride, 100, [3], [1]⟩, ![2]⟩
    let c : ℤ → PatchView 1 := fun b => ⟨⟨.stride, b, [6], [1]⟩, ![0]⟩
    FluxViews f [] (β :: c 200 :: ([c 300] ++ [])) ∧ CutNoAlias 2 [f] β (c 200) [c 300] [] f.box 0 := by
  intro f β c
  have hb : ∀ i ∈ f.box.toSet, 2 ≤ i 0 ∧ i 0 < 5 := by
    intro i hi
    have h0 := hi 0
    simp [f, PatchView.box] at h0
    omega
  have hf : ∀ i, f.addr i = i 0 - 2 := by intro i; simp [f, PatchView.addr, MdSpan.addr, dot]
  have hβ : ∀ i, β.addr i = 100 + (i 0 - 2) := by intro i; simp [β, PatchView.addr, MdSpan.addr, dot]
  have hc : ∀ b i, (c b).addr i = b + i 0 := by intro b i; simp [c, PatchView.addr, MdSpan.addr, dot]
  refine ⟨⟨rfl, by simp [f, β, c], by simp [f, β, c], rfl, by simp [f, NestedStrides], by simp [f], by simp⟩, ?_, ?_⟩
  · intro i hi j hj a b u v hu hv h
    rcases a with _ | a <;> rcases b with _ | b <;> simp at hu hv
    subst hu; subst hv
    rw [hf, hf] at h
    refine ⟨?_, rfl⟩
    funext e; fin_cases e
    show i 0 = j 0
    omega
  · intro i hi j hj u hu hm
    have := hb i hi
    have := hb j hj
    simp only [List.mem_cons, List.not_mem_nil, or_false] at hu
    subst hu
    simp only [cutReads, List.map_cons, List.map_nil, List.flatMap_nil, List.append_nil, List.mem_cons, List.mem_append, List.mem_map, List.mem_flatMap, List.mem_range,
      List.not_mem_nil, or_false, hf, hβ, hc] at hm
    rcases hm with h | ⟨k, hk, h⟩ | ⟨k, hk, h⟩ | ⟨_, _, h⟩
    · omega
    · have hs : (shift j 0 ((k : ℤ) - (2 : ℕ)) : Index 1) 0 = j 0 + (k - 2) := by simp [shift]
      rw [hs] at h
      omega
    · have hs : (shift j 0 ((k : ℤ) - (2 : ℕ)) : Index 1) 0 = j 0 + (k - 2) := by simp [shift]
      rw [hs] at h
      omega
    · exact h

/-- The sweep over that patch with a central slope: the covered cell contains a huge number, the flux at the face 4 is computed without it, with vectors of two lanes. -/
example : let f : PatchView 1 := ⟨⟨.stride, 0, [3], [1]⟩, ![2]⟩
    let β : PatchView 1 := ⟨⟨.stride, 100, [3], [1]⟩, ![2]⟩
    let c : ℤ → PatchView 1 := fun b => ⟨⟨.stride, b, [6], [1]⟩, ![0]⟩
    let m : Mem ℚ := fun a => if a < 100 then 0 else if a < 200 then 1 else if a < 205 then 1 else if a = 205 then 0 else if a = 305 then 1000000 else (a - 300 : ℤ)
    ((cutRegularFluxes (muscl2Lane 1 (fun x _ z => ((z.getD 0 0 - x.getD 0 0) / 2 : ℚ)) (fun q g up => [q.getD 0 0 + if up then g / 2 else -g / 2])
      (fun _ x y => [x.getD 0 0 + 100 * y.getD 0 0])) 5 2 (by decide) 2 f [] β (c 200) [c 300] [] 0 m).map fun r => [r 0, r 1, r 2]) =
      some [3/2 + 100 * (3/2), 5/2 + 100 * (5/2), 7/2 + 100 * 4] := by
  decide +kernel

end Fub
