import Verif.Props.PatchIntegrator
import Mathlib.Order.Bounds.Basic
import Mathlib.Data.Rat.Defs

/-!
C30: the stable time step of a patch.
-/

namespace Fub
variable {K : Type} [LinearOrder K]

theorem le_foldl_min {α : Type} [LinearOrder α] (l : List α) (a r : α) : r ≤ l.foldl min a ↔ r ≤ a ∧ ∀ x ∈ l, r ≤ x := by
  induction l generalizing a with
  | nil => simp
  | cons x l ih => simp only [List.foldl_cons, ih, le_min_iff, List.forall_mem_cons, and_assoc]

theorem minLanes_spec (acc : List (WithTop K)) (vals : List K) (h : vals.length ≤ acc.length) (r : WithTop K) :
    (minLanes acc vals).length = acc.length ∧
    ((∀ x ∈ minLanes acc vals, r ≤ x) ↔ (∀ x ∈ acc, r ≤ x) ∧ ∀ x ∈ vals, r ≤ (x : WithTop K)) := by
  induction vals generalizing acc with
  | nil => simp [minLanes]
  | cons v vals ih =>
    cases acc with
    | nil => simp at h
    | cons a acc =>
      have := ih acc (by simpa using h)
      simp only [minLanes, List.zipWith_cons_cons, List.length_cons, List.drop_succ_cons, List.cons_append] at this ⊢
      refine ⟨by rw [this.1], ?_⟩
      simp only [List.forall_mem_cons, this.2, le_min_iff]
      tauto

theorem minRow_spec (w : Nat) (hw : 0 < w) (n : Nat) : ∀ (acc : List (WithTop K)) (vals : List K), vals.length = n → acc.length = w → ∀ r : WithTop K,
    (minRow w hw acc vals).length = w ∧
    ((∀ x ∈ minRow w hw acc vals, r ≤ x) ↔ (∀ x ∈ acc, r ≤ x) ∧ ∀ x ∈ vals, r ≤ (x : WithTop K)) := by
  induction n using Nat.strong_induction_on with
  | _ n ih =>
    intro acc vals hv ha r
    rw [minRow]
    split
    · rename_i hle
      have h1 := minLanes_spec acc (vals.take w) (by simp [ha]) r
      have h2 := ih (n - w) (by omega) (minLanes acc (vals.take w)) (vals.drop w) (by simp [hv]) (by rw [h1.1, ha]) r
      refine ⟨h2.1, ?_⟩
      rw [h2.2, h1.2]
      have : (∀ x ∈ vals, r ≤ (x : WithTop K)) ↔ (∀ x ∈ vals.take w, r ≤ (x : WithTop K)) ∧ ∀ x ∈ vals.drop w, r ≤ (x : WithTop K) := by
        rw [← List.forall_mem_append, List.take_append_drop]
      rw [this]; tauto
    · have h1 := minLanes_spec acc vals (by omega) r
      exact ⟨by rw [h1.1, ha], h1.2⟩

theorem minRows_spec (w : Nat) (hw : 0 < w) (rows : List (List K)) (acc : List (WithTop K)) (ha : acc.length = w) (r : WithTop K) :
    (∀ x ∈ rows.foldl (fun acc row => minRow w hw acc row) acc, r ≤ x) ↔ (∀ x ∈ acc, r ≤ x) ∧ ∀ x ∈ rows.flatten, r ≤ (x : WithTop K) := by
  induction rows generalizing acc with
  | nil => simp
  | cons row rows ih =>
    have h := minRow_spec w hw row.length acc row rfl ha r
    rw [List.foldl_cons, ih _ h.1, h.2, List.flatten_cons, List.forall_mem_append]
    tauto

theorem mem_stencils {n : Nat} (S : Nat) (hS : 0 < S) (box : IndexBox n) (d : Fin n) (i : Index n) :
    i ∈ stencils S box d ↔ i ∈ (box.shrink d 0 ((S : Int) - 1)).toSet := by
  rw [shrink_spec]
  constructor
  · intro h
    have h0 := h 0 hS
    have h1 := h (S - 1) (by omega)
    refine ⟨?_, fun e he => by simpa [shift, he] using h0 e⟩
    have a := h0 d
    have b := h1 d
    simp [shift] at a b
    omega
  · rintro ⟨h1, h2⟩ k hk e
    by_cases he : e = d
    · subst he; simp [shift]; omega
    · simpa [shift, he] using h2 e he

/-- **C30 (vectorised).** For every vector width, stencil size, box (of any rank) and direction the vectorised `ComputeStableDt` is the minimum of
the method's values over all stencils inside the box (infinite if there are none). -/
theorem stableDtSimd_spec {n : Nat} (w : Nat) (hw : 0 < w) (S : Nat) (hS : 0 < S) (box : IndexBox (n + 1)) (d : Fin (n + 1)) (dtAt : Index (n + 1) → K) :
    IsGLB ((fun i => (dtAt i : WithTop K)) '' stencils S box d) (stableDtSimd w hw S box d dtAt) := by
  have key : ∀ r, r ≤ stableDtSimd w hw S box d dtAt ↔ ∀ i ∈ stencils S box d, r ≤ (dtAt i : WithTop K) := by
    intro r
    rw [stableDtSimd, le_foldl_min]
    have := minRows_spec w hw ((boxRows (box.shrink d 0 ((S : Int) - 1))).map fun row => row.map dtAt) (List.replicate w ⊤) (by simp) r
    rw [List.foldl_map] at this
    rw [this, ← List.map_flatten, ← forEachIndex_rows]
    simp only [le_top, true_and, List.forall_mem_map, (forEachIndex_spec _).1]
    constructor
    · intro h i hi; exact h.2 i ((mem_stencils S hS box d i).1 hi)
    · intro h
      exact ⟨fun x hx => by rw [List.eq_of_mem_replicate hx]; exact le_top, fun i hi => h i ((mem_stencils S hS box d i).2 hi)⟩
  constructor
  · rintro _ ⟨i, hi, rfl⟩; exact (key _).1 le_rfl i hi
  · intro r hr; exact (key r).2 fun i hi => hr ⟨i, hi, rfl⟩

/-- **C30 (sequential, what it computes).** The sequential `ComputeStableDt` is the minimum over the stencils that still fit into the box when
one more cell is appended to them: it leaves out the last stencil of every row in the direction of the sweep. -/
theorem stableDtSeq_partial {n : Nat} (S : Nat) (box : IndexBox n) (d : Fin n) (dtAt : Index n → K) :
    IsGLB ((fun i => (dtAt i : WithTop K)) '' stencils (S + 1) box d) (stableDtSeq S box d dtAt) := by
  have hfold : ∀ (l : List (Index n)) (a r : WithTop K), r ≤ l.foldl (fun acc i => min (dtAt i : WithTop K) acc) a ↔
      r ≤ a ∧ ∀ i ∈ l, r ≤ (dtAt i : WithTop K) := by
    intro l
    induction l with
    | nil => simp
    | cons x l ih => intro a r; simp only [List.foldl_cons, ih, le_min_iff, List.forall_mem_cons]; tauto
  have key : ∀ r, r ≤ stableDtSeq S box d dtAt ↔ ∀ i ∈ stencils (S + 1) box d, r ≤ (dtAt i : WithTop K) := by
    intro r
    rw [stableDtSeq, hfold]
    simp only [le_top, true_and, (forEachIndex_spec _).1]
    refine forall_congr' fun i => ?_
    rw [mem_stencils (S + 1) (by omega) box d i]
    simp
  constructor
  · rintro _ ⟨i, hi, rfl⟩; exact (key _).1 le_rfl i hi
  · intro r hr; exact (key r).2 fun i hi => hr ⟨i, hi, rfl⟩

/-- **C30 (consequence).** The sequential time step is never smaller than the vectorised one. -/
theorem stableDt_simd_le_seq {n : Nat} (w : Nat) (hw : 0 < w) (S : Nat) (hS : 0 < S) (box : IndexBox (n + 1)) (d : Fin (n + 1)) (dtAt : Index (n + 1) → K) :
    stableDtSimd w hw S box d dtAt ≤ stableDtSeq S box d dtAt := by
  refine (stableDtSeq_partial S box d dtAt).2 ?_
  rintro _ ⟨i, hi, rfl⟩
  exact (stableDtSimd_spec w hw S hS box d dtAt).1 ⟨i, fun k hk => hi k (by omega), rfl⟩

/-- **C30 is false: the sequential and the vectorised time step differ.** On four cells with stencils of two cells, where the fastest wave is in the last stencil, the
sequential version returns 1 although the last stencil only allows 1/2, which is what the vectorised one returns. -/
theorem stableDt_seq_differs :
    let dtAt : Index 1 → ℚ := fun i => if i 0 = 2 then 1/2 else 1
    let box : IndexBox 1 := ⟨![0], ![4]⟩
    stableDtSeq 2 box 0 dtAt = 1 ∧ stableDtSimd 8 (by decide) 2 box 0 dtAt = ((1/2 : ℚ) : WithTop ℚ) ∧ (![2] : Index 1) ∈ stencils 2 box 0 := by
  refine ⟨by decide +kernel, ?_, ?_⟩
  · have h := stableDtSimd_spec 8 (by decide) 2 (by decide) (⟨![0], ![4]⟩ : IndexBox 1) 0 (fun i => if i 0 = 2 then (1/2 : ℚ) else 1)
    refine h.unique ⟨?_, ?_⟩
    · rintro _ ⟨i, -, rfl⟩
      rw [WithTop.coe_le_coe]
      split <;> decide +kernel
    · intro r hr
      refine hr ⟨![2], ?_, ?_⟩
      · intro k hk d
        have : k = 0 ∨ k = 1 := by omega
        fin_cases d
        rcases this with rfl | rfl <;> simp [shift]
      · simp
  · intro k hk d
    have : k = 0 ∨ k = 1 := by omega
    fin_cases d
    rcases this with rfl | rfl <;> simp [shift]

/-- A box that is as long as the stencil has one stencil, but the sequential version returns an infinite time step whatever the data. -/
theorem stableDt_seq_infinite {n : Nat} (S : Nat) (box : IndexBox n) (d : Fin n) (h : box.upper d = box.lower d + S) (dtAt : Index n → K) :
    stableDtSeq S box d dtAt = ⊤ := by
  have : ⊤ ≤ stableDtSeq S box d dtAt := (stableDtSeq_partial S box d dtAt).2 (fun x hx => by
    obtain ⟨i, hi, rfl⟩ := hx
    have h0 := hi 0 (by omega) d
    have h1 := hi S (by omega) d
    simp [shift] at h0 h1
    omega)
  exact top_le_iff.1 this

/-! ### The level: minimum over patches or tiles -/

/-- **C30 (level).** The time step of a level is the minimum over the stencils inside one of the boxes the iterator visits. -/
theorem adapterStableDt_spec {n : Nat} (w : Nat) (hw : 0 < w) (S : Nat) (hS : 0 < S) (boxes : List (IndexBox (n + 1))) (d : Fin (n + 1))
    (dtAt : Index (n + 1) → K) :
    IsGLB ((fun i => (dtAt i : WithTop K)) '' {i | ∃ b ∈ boxes, i ∈ stencils S b d})
      (adapterStableDt (fun b => stableDtSimd w hw S b d dtAt) boxes) := by
  have hfold : ∀ (l : List (IndexBox (n + 1))) (a r : WithTop K),
      r ≤ l.foldl (fun acc b => min acc (stableDtSimd w hw S b d dtAt)) a ↔ r ≤ a ∧ ∀ b ∈ l, r ≤ stableDtSimd w hw S b d dtAt := by
    intro l
    induction l with
    | nil => simp
    | cons x l ih => intro a r; simp only [List.foldl_cons, ih, le_min_iff, List.forall_mem_cons]; tauto
  constructor
  · rintro _ ⟨i, ⟨b, hb, hi⟩, rfl⟩
    refine le_trans ?_ ((stableDtSimd_spec w hw S hS b d dtAt).1 ⟨i, hi, rfl⟩)
    exact ((hfold boxes ⊤ _).1 le_rfl).2 b hb
  · intro r hr
    refine (hfold boxes ⊤ r).2 ⟨le_top, fun b hb => (stableDtSimd_spec w hw S hS b d dtAt).2 ?_⟩
    rintro _ ⟨i, hi, rfl⟩
    exact hr ⟨i, ⟨b, hb, hi⟩, rfl⟩

/-- **C30 is false for tiled iteration in the y direction.** The patch [0,4)x[0,16) is visited in the tiles y < 8 and y >= 8. The stencil of the cells y = 7 and
y = 8 lies in no tile: if it has the smallest time step, the tiled version returns a larger one than the version that visits the whole patch. -/
theorem stableDt_tiles_differ :
    let dtAt : Index 2 → ℚ := fun i => if i 1 = 7 then 1/2 else 1
    adapterStableDt (fun b => stableDtSimd 8 (by decide) 2 b 1 dtAt) [⟨![0, 0], ![4, 8]⟩, ⟨![0, 8], ![4, 16]⟩] = 1 ∧
    adapterStableDt (fun b => stableDtSimd 8 (by decide) 2 b 1 dtAt) [⟨![0, 0], ![4, 16]⟩] = ((1/2 : ℚ) : WithTop ℚ) := by
  intro dtAt
  constructor
  · have h := adapterStableDt_spec 8 (by decide) 2 (by decide) [(⟨![0, 0], ![4, 8]⟩ : IndexBox 2), ⟨![0, 8], ![4, 16]⟩] 1 dtAt
    refine h.unique ⟨?_, ?_⟩
    · rintro _ ⟨i, ⟨b, hb, hi⟩, rfl⟩
      have h0 := hi 0 (by omega) 1
      have h1 := hi 1 (by omega) 1
      simp only [List.mem_cons, List.not_mem_nil, or_false] at hb
      have : i 1 ≠ 7 := by
        rcases hb with rfl | rfl <;> simp [shift] at h0 h1 <;> omega
      simp [dtAt, this]
    · intro r hr
      refine hr ⟨![0, 0], ⟨_, List.mem_cons_self, ?_⟩, ?_⟩
      · intro k hk e
        have : k = 0 ∨ k = 1 := by omega
        fin_cases e <;> rcases this with rfl | rfl <;> simp [shift]
      · simp [dtAt]
  · have h := adapterStableDt_spec 8 (by decide) 2 (by decide) [(⟨![0, 0], ![4, 16]⟩ : IndexBox 2)] 1 dtAt
    refine h.unique ⟨?_, ?_⟩
    · rintro _ ⟨i, -, rfl⟩
      simp only [dtAt]
      rw [WithTop.coe_le_coe]
      split <;> decide +kernel
    · intro r hr
      refine hr ⟨![0, 7], ⟨_, List.mem_cons_self, ?_⟩, ?_⟩
      · intro k hk e
        have : k = 0 ∨ k = 1 := by omega
        fin_cases e <;> rcases this with rfl | rfl <;> simp [shift]
      · simp [dtAt]

end Fub
