import Verif.Model.AxialSweep
import Verif.Spec.AxialSweep
import Verif.Props.PatchIntegrator
import Verif.Props.AxialTube

/-!
C168 (the flux sweep of tubes with a varying cross section).
-/

namespace Fub
variable {K : Type}

/-- The method with the pressure as one more flux component. -/
def withPressure (F : List K → List K × K) (l : List K) : List K := (F l).1 ++ [(F l).2]

/-! ### Sequences of stores -/

/-- Stores one after the other. -/
def stores (m : Mem K) (l : List (Int × K)) : Mem K := l.foldl (fun m q => Function.update m q.1 q.2) m

theorem stores_off (m : Mem K) (l : List (Int × K)) (x : Int) (h : x ∉ l.map Prod.fst) : stores m l x = m x := by
  induction l generalizing m with
  | nil => rfl
  | cons q l ih =>
    simp only [List.map_cons, List.mem_cons, not_or] at h
    rw [stores, List.foldl_cons]
    exact (ih _ h.2).trans (Function.update_of_ne h.1 _ _)

theorem stores_on (m : Mem K) (l : List (Int × K)) (hn : (l.map Prod.fst).Nodup) (q : Int × K) (h : q ∈ l) : stores m l q.1 = q.2 := by
  induction l generalizing m with
  | nil => simp at h
  | cons r l ih =>
    simp only [List.map_cons, List.nodup_cons] at hn
    rw [stores, List.foldl_cons]
    rcases List.mem_cons.1 h with rfl | h
    · exact (stores_off _ l _ hn.1).trans (by simp)
    · exact ih _ hn.2 h

theorem stores_perm (m : Mem K) (l l' : List (Int × K)) (hn : (l.map Prod.fst).Nodup) (h : l.Perm l') : stores m l = stores m l' := by
  funext x
  by_cases hx : x ∈ l.map Prod.fst
  · obtain ⟨q, hq, rfl⟩ := List.mem_map.1 hx
    rw [stores_on m l hn q hq, stores_on m l' ((h.map Prod.fst).nodup hn) q (h.mem_iff.1 hq)]
  · rw [stores_off _ _ _ hx, stores_off _ _ _ (fun h' => hx ((h.map Prod.fst).mem_iff.2 h'))]

theorem writeList_stores (m : Mem K) (as : List Int) (xs : List K) : writeList m as xs = stores m (as.zip xs) := by
  induction as generalizing m xs with
  | nil => simp [writeList, stores]
  | cons a as ih =>
    cases xs with
    | nil => simp [writeList, stores]
    | cons x xs => rw [writeList, ih]; rfl

theorem foldl_stores {α : Type} (f : Mem K → α → Mem K) (g : α → List (Int × K)) (hf : ∀ m a, f m a = stores m (g a)) (l : List α) (m : Mem K) :
    l.foldl f m = stores m (l.flatMap g) := by
  induction l generalizing m with
  | nil => rfl
  | cons a l ih => rw [List.foldl_cons, ih, hf, List.flatMap_cons, stores, stores, stores, List.foldl_append]

theorem flatMap_append_perm {α β : Type} (l : List α) (f g : α → List β) : (l.flatMap fun a => f a ++ g a).Perm (l.flatMap f ++ l.flatMap g) := by
  induction l with
  | nil => simp
  | cons a l ih =>
    simp only [List.flatMap_cons, List.append_assoc]
    refine List.Perm.append_left _ ?_
    refine (List.Perm.append_left _ ih).trans ?_
    rw [← List.append_assoc, ← List.append_assoc]
    exact List.Perm.append_right _ List.perm_append_comm

/-- Storing all fluxes and then all pressures is storing lane after lane. -/
theorem axialStores_eq (F : List K → List K × K) (m : Mem K) (states fit : List Int) (p : Int) (k : Nat) (hF : ∀ l, (F l).1.length = fit.length)
    (hn : ((lanes states (fit ++ [p]) k).flatMap CellOp.dsts).Nodup) :
    axialStores F m states fit p k = runLanes (withPressure F) m (lanes states (fit ++ [p]) k) := by
  have h1 : runLanes (withPressure F) m (lanes states (fit ++ [p]) k) = stores m ((List.range k).flatMap fun j : Nat =>
      (fit.map fun a => a + (j : Int)).zip (F (states.map fun a => m (a + (j : Int)))).1 ++
        [(p + (j : Int), (F (states.map fun a => m (a + (j : Int)))).2)]) := by
    rw [runLanes, lanes, List.foldl_map]
    refine foldl_stores _ _ (fun m' j => ?_) _ _
    dsimp only
    rw [writeList_stores]
    congr 1
    simp only [withPressure, List.map_append, List.map_cons, List.map_nil, List.map_map, Function.comp_def]
    rw [List.zip_append (by simp [hF])]
    rfl
  have h2 : axialStores F m states fit p k = stores m (((List.range k).flatMap fun j : Nat =>
      (fit.map fun a => a + (j : Int)).zip (F (states.map fun a => m (a + (j : Int)))).1) ++
        (List.range k).flatMap fun j : Nat => [(p + (j : Int), (F (states.map fun a => m (a + (j : Int)))).2)]) := by
    have e1 : ∀ m0 : Mem K, (List.range k).foldl (fun (m' : Mem K) (j : Nat) =>
        Function.update m' (p + (j : Int)) (F (states.map fun a => m (a + (j : Int)))).2) m0 =
        stores m0 ((List.range k).flatMap fun j : Nat => [(p + (j : Int), (F (states.map fun a => m (a + (j : Int)))).2)]) :=
      fun m0 => foldl_stores (fun (m' : Mem K) (j : Nat) => Function.update m' (p + (j : Int)) (F (states.map fun a => m (a + (j : Int)))).2)
        (fun j : Nat => [(p + (j : Int), (F (states.map fun a => m (a + (j : Int)))).2)]) (fun m' j => rfl) _ _
    have e2 : (List.range k).foldl (fun (m' : Mem K) (j : Nat) =>
        writeList m' (fit.map fun a => a + (j : Int)) (F (states.map fun a => m (a + (j : Int)))).1) m =
        stores m ((List.range k).flatMap fun j : Nat =>
          (fit.map fun a => a + (j : Int)).zip (F (states.map fun a => m (a + (j : Int)))).1) :=
      foldl_stores (fun (m' : Mem K) (j : Nat) => writeList m' (fit.map fun a => a + (j : Int)) (F (states.map fun a => m (a + (j : Int)))).1)
        (fun j : Nat => (fit.map fun a => a + (j : Int)).zip (F (states.map fun a => m (a + (j : Int)))).1) (fun m' j => writeList_stores _ _ _) _ _
    rw [axialStores]
    rw [e1, e2, stores, stores, stores, List.foldl_append]
  rw [h1, h2]
  refine (stores_perm _ _ _ ?_ (flatMap_append_perm _ _ _)).symm
  have : (((List.range k).flatMap fun j : Nat =>
      (fit.map fun a => a + (j : Int)).zip (F (states.map fun a => m (a + (j : Int)))).1 ++
        [(p + (j : Int), (F (states.map fun a => m (a + (j : Int)))).2)]).map Prod.fst) = (lanes states (fit ++ [p]) k).flatMap CellOp.dsts := by
    rw [List.map_flatMap, lanes, List.flatMap_map]
    refine List.flatMap_congr fun j _ => ?_
    simp only [List.map_append, List.map_cons, List.map_nil]
    rw [List.map_fst_zip (by simp [hF])]
  rw [this]
  exact hn

theorem axialRow_eq (F : List K → List K × K) (w : Nat) (hw : 0 < w) (n : Nat) : ∀ (m : Mem K) (states fit : List Int) (p : Int),
    (∀ l, (F l).1.length = fit.length) → ((lanes states (fit ++ [p]) n).flatMap CellOp.dsts).Nodup →
    axialRow F w hw m states fit p n = simdRow (withPressure F) w hw m states (fit ++ [p]) n := by
  induction n using Nat.strong_induction_on with
  | _ n ih =>
    intro m states fit p hF hn
    rw [axialRow, simdRow]
    split
    · rename_i h
      have hsplit := lanes_add states (fit ++ [p]) w (n - w)
      rw [Nat.add_sub_cancel' h] at hsplit
      rw [hsplit, List.flatMap_append] at hn
      rw [axialStores_eq F m states fit p w hF hn.of_append_left]
      have he : ((fit ++ [p]).map fun a => a + (w : Int)) = (fit.map fun a => a + (w : Int)) ++ [p + (w : Int)] := by simp
      rw [he] at hn ⊢
      exact ih (n - w) (by omega) _ _ _ _ (by simpa using hF) hn.of_append_right
    · exact axialStores_eq F m states fit p n hF hn

theorem axialRowFn_eq (F : List K → List K × K) (w : Nat) (hw : 0 < w) (nf : Nat) (m : Mem K) (row : List RowRef) (hF : ∀ l, (F l).1.length = nf)
    (hl : nf + 1 ≤ row.length)
    (hn : ((((List.range ((row.map RowRef.len).headD 0)).map fun k : Nat => row.map fun r => r.start + (k : Int)).map
      (tupleOp (nf + 1))).flatMap CellOp.dsts).Nodup) :
    axialRowFn F w hw nf m row = fluxRowFn (withPressure F) w hw (nf + 1) m row := by
  have he : (row.take (nf + 1)).map RowRef.start = (row.take nf).map RowRef.start ++ [(row.map RowRef.start).getD nf 0] := by
    rw [List.take_add_one, List.map_append]
    congr 1
    simp [List.getElem?_eq_getElem (show nf < row.length by omega)]
  rw [← lanes_tuples, he] at hn
  rw [axialRowFn, fluxRowFn, he]
  refine axialRow_eq F w hw _ m _ _ _ (fun l => ?_) hn
  rw [hF, List.length_map, List.length_take]
  omega

theorem foldl_congr_mem {α β : Type} (f g : β → α → β) (l : List α) (h : ∀ a ∈ l, ∀ b, f b a = g b a) (b : β) : l.foldl f b = l.foldl g b := by
  induction l generalizing b with
  | nil => rfl
  | cons a l ih => rw [List.foldl_cons, List.foldl_cons, h a (by simp), ih (fun x hx => h x (by simp [hx]))]

/-- **C168.** For every vector width, stencil width, method, number of faces and content of the memory the vectorised sweep of a tube stores at every face the flux and
the pressure the method computes from the cells around this face, and changes nothing else. -/
theorem axial_sweep_faces {n : Nat} (hn : n = 1 ∨ n = 2 ∨ n = 3) (F : List K → List K × K) (W : Nat) (flux : PatchView n) (fluxes : List (PatchView n))
    (pressure : PatchView n) (states : List (PatchView n)) (d : Fin n) (hF : ∀ l, (F l).1.length = fluxes.length + 1)
    (hv : FluxViews flux (fluxes ++ [pressure]) states) (hna : FluxNoAlias W (flux :: (fluxes ++ [pressure])) states flux.box d) (fuel w : Nat)
    (hw : 0 < w) (hf : flux.mds.ext.getD 1 0 < fuel) (m : Mem K) :
    ∃ m', axialSweep F fuel w hw W flux fluxes pressure states d m = some m' ∧
      IsAxialSweep F W (flux :: fluxes) pressure states flux.box d m m' := by
  have key : axialSweep F fuel w hw W flux fluxes pressure states d m =
      fluxSimd (withPressure F) fuel w hw W flux (fluxes ++ [pressure]) states d m := by
    obtain ⟨rows, h1, h2, h3⟩ := fluxRows_ops hn W flux (fluxes ++ [pressure]) states d hv fuel hf
    have hviews : (flux :: fluxes) ++ pressure :: stencilViews W flux.box states d =
        (flux :: (fluxes ++ [pressure])) ++ stencilViews W flux.box states d := by simp
    have hlen : (fluxes ++ [pressure]).length = fluxes.length + 1 := by simp
    rw [hlen] at h2 h3
    rw [axialSweep, fluxSimd, hviews, h1, Option.map_some, Option.map_some, hlen]
    congr 1
    refine foldl_congr_mem _ _ _ (fun row hrow m => ?_) _
    refine axialRowFn_eq F w hw _ m row hF (by have := h3 row hrow; omega) ?_
    have hnd := (flux_noAlias hna).nodup
    rw [← h2, rowTuples, List.map_flatMap] at hnd
    rw [List.flatMap_assoc, List.nodup_flatMap] at hnd
    exact hnd.1 row hrow
  refine ⟨_, by rw [key, fluxSimd_eq hn _ W flux (fluxes ++ [pressure]) states d hv hna fuel w hw hf m], ?_⟩
  have hspec := fluxSeq_spec (withPressure F) W flux (fluxes ++ [pressure]) states d m hna (by intro l; simp [withPressure, hF])
  constructor
  · intro i hi
    have := hspec.faces i hi
    rw [withPressure, ← List.cons_append, List.map_append] at this
    obtain ⟨e1, e2⟩ := List.append_inj this (by simp [hF])
    simp only [List.map_cons, List.map_nil, List.cons.injEq, and_true] at e2
    exact Prod.ext e1 e2
  · intro a ha
    refine hspec.others a fun i hi v hvm => ?_
    rw [← List.cons_append, List.mem_append, List.mem_singleton] at hvm
    rcases hvm with hvm | rfl
    · exact (ha i hi).2 v hvm
    · exact (ha i hi).1

/-- **C168.** The step of a tube from memory: the sweep stores fluxes and pressures, and the axial time integrator that reads them changes the content of every cell by what
the method's fluxes of its two faces carry, and its axial momentum by the method's pressures on the wall. The states are those before the step. -/
theorem axial_step_balance [Field K] [LinearOrder K] [IsStrictOrderedRing K] (F : List K → List K × K) (W : Nat) (flux : PatchView 1)
    (fluxes : List (PatchView 1)) (pressure : PatchView 1) (states : List (PatchView 1)) (hF : ∀ l, (F l).1.length = fluxes.length + 1)
    (hv : FluxViews flux (fluxes ++ [pressure]) states) (hna : FluxNoAlias W (flux :: (fluxes ++ [pressure])) states flux.box 0) (fuel w : Nat)
    (hw : 0 < w) (hf : flux.mds.ext.getD 1 0 < fuel) (m : Mem K) (mom : Fin (fluxes.length + 1)) {dt dx : K} (hdx : 0 < dx) {area : Int → K}
    (hA : ∀ f, 0 < area f) (u : Int → Fin (fluxes.length + 1) → K) (cells : Int × Int) (c : Int) (hc : cells.1 ≤ c ∧ c < cells.2)
    (hl : ![c] ∈ flux.box.toSet) (hr : ![c + 1] ∈ flux.box.toSet) (i : Fin (fluxes.length + 1)) :
    let around : Int → List K := fun f =>
      (List.range (2 * W)).flatMap fun k : Nat => states.map fun v => m (v.addr ![f + ((k : Int) - W)])
    ∃ m', axialSweep F fuel w hw W flux fluxes pressure states 0 m = some m' ∧
      tubeVolume area dx c * axialUpdate mom dt dx area (fun f => m' (pressure.addr ![f]))
          (fun f (j : Fin (fluxes.length + 1)) => m' (((flux :: fluxes).get j).addr ![f])) cells u c i =
        tubeVolume area dx c * u c i
          + dt * (area c * (F (around c)).1.getD i 0 - area (c + 1) * (F (around (c + 1))).1.getD i 0)
          + if i = mom then dt * ((area (c + 1) - area c) * (((F (around c)).2 + (F (around (c + 1))).2) / 2)) else 0 := by
  intro around
  obtain ⟨m', h1, h2⟩ := axial_sweep_faces (.inl rfl) F W flux fluxes pressure states 0 hF hv hna fuel w hw hf m
  refine ⟨m', h1, ?_⟩
  have hsh : ∀ (f : Int) (k : Int), (shift ![f] (0 : Fin 1) k : Index 1) = ![f + k] := by
    intro f k; funext e; fin_cases e; simp [shift]
  have hface : ∀ f : Int, ![f] ∈ flux.box.toSet → (∀ j : Fin (fluxes.length + 1),
      m' (((flux :: fluxes).get j).addr ![f]) = (F (around f)).1.getD j 0) ∧ m' (pressure.addr ![f]) = (F (around f)).2 := by
    intro f hfm
    have := h2.faces ![f] hfm
    simp only [hsh] at this
    obtain ⟨e1, e2⟩ := Prod.mk.injEq _ _ _ _ ▸ (show _ = ((F (around f)).1, (F (around f)).2) from this)
    refine ⟨fun j => ?_, e2⟩
    rw [← e1, List.getD_eq_getElem?_getD, List.getElem?_map, List.getElem?_eq_getElem (show (j : Nat) < (flux :: fluxes).length from j.isLt)]
    rfl
  rw [axial_update_in _ _ _ _ _ _ cells.1 cells.2 _ c hc, axial_cell_balance mom hdx hA]
  simp only [(hface c hl).1, (hface (c + 1) hr).1, (hface c hl).2, (hface (c + 1) hr).2]

/-- **C168.** Whatever sequence of levels, numbers of levels and grids was seen before, the pressures of a level have the layout of its fluxes when the sweep starts, and the
pressures of the other levels are still those they were. -/
theorem pressure_layout {B : Type} [DecidableEq B] (history : List (Nat × Nat × B)) (hh : ∀ h ∈ history, h.2.1 < h.1) (nlevels level : Nat)
    (hl : level < nlevels) (layout : B) :
    ∃ store store', history.foldlM (fun s h => allocatePressure h.1 h.2.1 h.2.2 s) ([] : List (Option B)) = some store ∧
      allocatePressure nlevels level layout store = some store' ∧ store'.getD level none = some layout ∧
      ∀ k, k ≠ level → store'.getD k none = store.getD k none := by
  have step : ∀ (store : List (Option B)) (nlevels level : Nat) (layout : B), level < nlevels → ∃ store',
      allocatePressure nlevels level layout store = some store' ∧ store'.getD level none = some layout ∧
      ∀ k, k ≠ level → store'.getD k none = store.getD k none := by
    intro store nlevels level layout hl
    have hgrow : ∃ s1, (if store.length ≤ level then store.take nlevels ++ List.replicate (nlevels - store.length) none else store) = s1 ∧
        level < s1.length ∧ ∀ k, s1.getD k none = store.getD k none := by
      refine ⟨_, rfl, ?_, ?_⟩
      · split
        · rw [List.length_append, List.length_take, List.length_replicate]; omega
        · omega
      · intro k
        split
        · rename_i h
          rw [List.take_of_length_le (by omega)]
          simp only [List.getD_eq_getElem?_getD, List.getElem?_append]
          split
          · rfl
          · rename_i h'
            rw [List.getElem?_eq_none (show store.length ≤ k by omega), List.getElem?_replicate]
            split <;> rfl
        · rfl
    obtain ⟨s1, e, h1, h2⟩ := hgrow
    rw [allocatePressure, e]
    simp only [h1, if_true]
    refine ⟨_, rfl, ?_, ?_⟩
    · split
      · assumption
      · simp [List.getD_eq_getElem?_getD, h1]
    · intro k hk
      rw [← h2 k]
      split
      · rfl
      · simp [List.getD_eq_getElem?_getD, List.getElem?_set, Ne.symm hk]
  have hist : ∀ (history : List (Nat × Nat × B)) (s : List (Option B)), (∀ h ∈ history, h.2.1 < h.1) →
      ∃ store, history.foldlM (fun s h => allocatePressure h.1 h.2.1 h.2.2 s) s = some store := by
    intro history
    induction history with
    | nil => intro s _; exact ⟨s, rfl⟩
    | cons a l ih =>
      intro s h
      obtain ⟨s', h1, -⟩ := step s a.1 a.2.1 a.2.2 (h a (by simp))
      obtain ⟨s'', h2⟩ := ih s' (fun b hb => h b (by simp [hb]))
      exact ⟨s'', by simp only [List.foldlM_cons, h1]; exact h2⟩
  obtain ⟨store, h1⟩ := hist history [] hh
  obtain ⟨store', h2, h3, h4⟩ := step store nlevels level layout hl
  exact ⟨store, store', h1, h2, h3, h4⟩

/-! ### Concrete cases -/

/-- Three faces with one flux component, a pressure array and two state components meet the hypotheses. -/
theorem exTubeViews : let f : Int → PatchView 1 := fun b => ⟨⟨.stride, b, [3], [1]⟩, ![1]⟩
    let s : Int → PatchView 1 := fun b => ⟨⟨.stride, b, [6], [1]⟩, ![-1]⟩
    FluxViews (f 0) ([] ++ [f 10]) [s 100, s 200] ∧ FluxNoAlias 1 (f 0 :: ([] ++ [f 10])) [s 100, s 200] (f 0).box 0 := by
  intro f s
  have hb : ∀ i ∈ (f 0).box.toSet, 1 ≤ i 0 ∧ i 0 < 4 := by
    intro i hi
    have h0 := hi 0
    simp [f, PatchView.box] at h0
    omega
  have hf : ∀ b i, (f b).addr i = b + (i 0 - 1) := by intro b i; simp [f, PatchView.addr, MdSpan.addr, dot]
  have hs : ∀ b i, (s b).addr i = b + (i 0 + 1) := by intro b i; simp [s, PatchView.addr, MdSpan.addr, dot]
  refine ⟨⟨rfl, by simp [f, s], by simp [f, s], rfl, by simp [f, NestedStrides], by simp [f], by simp [f]⟩, ?_, ?_⟩
  · intro i hi j hj a b u v hu hv h
    have := hb i hi
    have := hb j hj
    have key : i 0 = j 0 ∧ a = b := by
      rcases a with _ | _ | a <;> rcases b with _ | _ | b <;> simp at hu hv <;> subst hu <;> subst hv <;> rw [hf, hf] at h <;>
        constructor <;> first | rfl | omega
    refine ⟨?_, key.2⟩
    funext d
    fin_cases d
    exact key.1
  · intro i hi j hj u hu v hv k hk
    have := hb i hi
    have := hb j hj
    have hsh : (shift j 0 ((k : Int) - (1 : Nat)) : Index 1) 0 = j 0 + (k - 1) := by simp [shift]
    simp only [List.nil_append, List.mem_cons, List.not_mem_nil, or_false] at hu hv
    rcases hu with rfl | rfl <;> rcases hv with rfl | rfl <;> rw [hf, hs, hsh] <;> omega

/-- A method with a difference as flux and a mean as pressure on three faces with vectors of two lanes: one full vector and a remainder of one. -/
example : let f : Int → PatchView 1 := fun b => ⟨⟨.stride, b, [3], [1]⟩, ![1]⟩
    let s : Int → PatchView 1 := fun b => ⟨⟨.stride, b, [6], [1]⟩, ![-1]⟩
    let F : List ℚ → List ℚ × ℚ := fun l => ([l.getD 0 0 - l.getD 2 0], (l.getD 1 0 + l.getD 3 0) / 2)
    let m : Mem ℚ := fun a => if 100 ≤ a ∧ a < 106 then (a - 100) ^ 2 else if 200 ≤ a ∧ a < 206 then 10 * (a - 200) else -7
    (axialSweep F 5 2 (by decide) 1 (f 0) [] (f 10) [s 100, s 200] 0 m).map (fun m' => ([0, 1, 2, 3].map m', [10, 11, 12, 13].map m')) =
      some ([-3, -5, -7, -7], [15, 25, 35, -7]) := by
  decide +kernel

example : (allocatePressure 3 2 "c" [some "a"]) = some [some "a", none, some "c"] := by decide +kernel

end Fub
