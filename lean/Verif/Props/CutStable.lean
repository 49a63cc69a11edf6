import Verif.Model.CutStable
import Verif.Props.StableDt
import Verif.Props.PatchSweep
import Mathlib.Data.List.Zip
import Mathlib.Tactic.FieldSimp
import Mathlib.Data.Rat.Defs

/-!
C182: the stable time step of the cut-cell methods.
-/

namespace Fub

/-! ## Rows of a translated box -/

theorem loopRange_add (l u t : ℤ) : loopRange (l + t) (u + t) = (loopRange l u).map (· + t) := by
  unfold loopRange
  rw [List.map_map, show u + t - (l + t) = u - l by ring]
  refine List.map_congr_left fun k _ => ?_
  simp only [Function.comp_apply]; ring

theorem forEachIndex_add {n : ℕ} (l u t : Index n) : forEachIndex (⟨l + t, u + t⟩ : IndexBox n) = (forEachIndex ⟨l, u⟩).map (· + t) := by
  induction n with
  | zero => simp only [forEachIndex, List.map_cons, List.map_nil]; congr 1; exact Subsingleton.elim _ _
  | succ n ih =>
    simp only [forEachIndex, Pi.add_apply, loopRange_add, List.flatMap_map, List.map_flatMap]
    refine List.flatMap_congr fun c _ => ?_
    have := ih (Fin.init l) (Fin.init u) (Fin.init t)
    have e1 : Fin.init (l + t) = Fin.init l + Fin.init t := rfl
    have e2 : Fin.init (u + t) = Fin.init u + Fin.init t := rfl
    rw [e1, e2, this, List.map_map, List.map_map]
    refine List.map_congr_left fun i _ => ?_
    funext k
    simp only [Function.comp_apply, Pi.add_apply]
    refine Fin.lastCases ?_ (fun k => ?_) k
    · simp
    · simp [Fin.init]

theorem boxRows_add {n : ℕ} (l u t : Index (n + 1)) :
    boxRows (⟨l + t, u + t⟩ : IndexBox (n + 1)) = (boxRows ⟨l, u⟩).map fun r => r.map (· + t) := by
  simp only [boxRows, Pi.add_apply, loopRange_add]
  have e1 : Fin.tail (l + t) = Fin.tail l + Fin.tail t := rfl
  have e2 : Fin.tail (u + t) = Fin.tail u + Fin.tail t := rfl
  rw [e1, e2, forEachIndex_add, List.map_map, List.map_map]
  refine List.map_congr_left fun i _ => ?_
  simp only [Function.comp_apply, List.map_map]
  refine List.map_congr_left fun x _ => ?_
  funext k
  simp only [Function.comp_apply, Pi.add_apply]
  refine Fin.cases ?_ (fun k => ?_) k
  · simp
  · simp [Fin.tail]

/-- The rows of faces are the rows of first stencil cells, shifted by the stencil width. -/
theorem faces_rows {n : ℕ} (W : ℕ) (b : IndexBox (n + 1)) (d : Fin (n + 1)) :
    boxRows (b.shrink d W ((W : ℤ) - 1)) = (boxRows (b.shrink d 0 (2 * (W : ℤ) - 1))).map fun r => r.map fun i => shift i d W := by
  have hs : (fun i : Index (n + 1) => shift i d (W : ℤ)) = fun i => i + Function.update (0 : Index (n + 1)) d (W : ℤ) := by
    funext i k
    by_cases h : k = d
    · subst h; simp [shift]
    · simp [shift, h]
  rw [hs, ← boxRows_add]
  congr 1
  unfold IndexBox.shrink
  congr 1 <;> funext k <;> by_cases h : k = d
  · subst h; simp
  · simp [h]
  · subst h; simp; ring
  · simp [h]

variable {K : Type} [Field K] [LinearOrder K]

/-! ## One row -/

theorem foldl_min_coe (l : List K) (acc r : WithTop K) :
    r ≤ l.foldl (fun (a : WithTop K) (x : K) => min a (x : WithTop K)) acc ↔ r ≤ acc ∧ ∀ x ∈ l, r ≤ (x : WithTop K) := by
  induction l generalizing acc with
  | nil => simp
  | cons x l ih => simp only [List.foldl_cons, ih, le_min_iff, List.forall_mem_cons, and_assoc]

/-- A row of values in chunks: the minimum of the values, and of `big`, since the last chunk is always padded. -/
theorem cutMinRow_spec (w : ℕ) (hw : 0 < w) (big : K) (n : ℕ) : ∀ (acc : WithTop K) (vals : List K), vals.length = n → ∀ r : WithTop K,
    (r ≤ cutMinRow w hw big acc vals ↔ r ≤ acc ∧ r ≤ (big : WithTop K) ∧ ∀ x ∈ vals, r ≤ (x : WithTop K)) := by
  induction n using Nat.strong_induction_on with
  | _ n ih =>
    intro acc vals hv r
    rw [cutMinRow]
    split
    · rw [ih (n - w) (by omega) _ (vals.drop w) (by simp [hv]) r, foldl_min_coe]
      have : (∀ x ∈ vals, r ≤ (x : WithTop K)) ↔ (∀ x ∈ vals.take w, r ≤ (x : WithTop K)) ∧ ∀ x ∈ vals.drop w, r ≤ (x : WithTop K) := by
        rw [← List.forall_mem_append, List.take_append_drop]
      rw [this]; tauto
    · rename_i hlt
      rw [foldl_min_coe, padLanes, List.forall_mem_append]
      have : (∀ x ∈ List.replicate (w - vals.length) big, r ≤ (x : WithTop K)) ↔ r ≤ (big : WithTop K) := by
        constructor
        · intro h; exact h big (List.mem_replicate.2 ⟨by omega, rfl⟩)
        · intro h x hx; rw [List.eq_of_mem_replicate hx]; exact h
      rw [this]; tauto

/-! ## One patch -/

theorem mem_first_stencils {n : ℕ} (W : ℕ) (hW : 0 < W) (b : IndexBox (n + 1)) (d : Fin (n + 1)) (i : Index (n + 1)) :
    i ∈ forEachIndex (b.shrink d 0 (2 * (W : ℤ) - 1)) ↔ ∀ k : ℤ, -W ≤ k → k < W → shift (shift i d W) d k ∈ b.toSet := by
  have h := mem_stencils (2 * W) (by omega) b d i
  rw [(forEachIndex_spec _).1]
  push_cast at h
  rw [← h]
  constructor
  · intro hh k k1 k2
    have := hh (W + k).toNat (by omega)
    have e : (((W : ℤ) + k).toNat : ℤ) = W + k := by omega
    rw [e] at this
    convert this using 1
    funext e; by_cases he : e = d
    · subst he; simp [shift]; ring
    · simp [shift, he]
  · intro hh k hk
    have := hh (k - W) (by omega) (by omega)
    convert this using 1
    funext e; by_cases he : e = d
    · subst he; simp [shift]
    · simp [shift, he]

/-- **C182 (patch).** A number is a lower bound of the time step of a cut patch exactly if it is below the values of all faces whose stencil lies in the patch -
the value of a face is computed from the area of this face and from the stencil around it - and, if the patch has a row, below the largest double. -/
theorem cutStableDt_spec {n : ℕ} (w : ℕ) (hw : 0 < w) (big : K) (W : ℕ) (hW : 0 < W) (b : IndexBox (n + 1)) (d : Fin (n + 1))
    (face : Index (n + 1) → K) (dtAt : K → Index (n + 1) → K) (r : WithTop K) :
    r ≤ cutStableDt w hw big W b d face dtAt ↔
      (boxRows (b.shrink d 0 (2 * (W : ℤ) - 1)) ≠ [] → r ≤ (big : WithTop K)) ∧
      ∀ f : Index (n + 1), (∀ k : ℤ, -W ≤ k → k < W → shift f d k ∈ b.toSet) → r ≤ (dtAt (face f) (shift f d (-W)) : WithTop K) := by
  have hrow : ∀ (rows : List (List (Index (n + 1)))) (acc : WithTop K),
      (r ≤ ((rows.map fun q => q.map fun i => shift i d (W : ℤ)).zip rows).foldl
        (fun acc q => cutMinRow w hw big acc (List.zipWith (fun f c => dtAt (face f) c) q.1 q.2)) acc ↔
      r ≤ acc ∧ (rows ≠ [] → r ≤ (big : WithTop K)) ∧ ∀ i ∈ rows.flatten, r ≤ (dtAt (face (shift i d W)) i : WithTop K)) := by
    intro rows
    induction rows with
    | nil => intro acc; simp
    | cons q rows ih =>
      intro acc
      simp only [List.map_cons, List.zip_cons_cons, List.foldl_cons, ih, List.flatten_cons, List.forall_mem_append]
      rw [cutMinRow_spec w hw big _ acc _ rfl r]
      have hz : List.zipWith (fun f c => dtAt (face f) c) (q.map fun i => shift i d (W : ℤ)) q = q.map fun i => dtAt (face (shift i d W)) i := by
        rw [List.zipWith_map_left, List.zipWith_self]
      rw [hz]
      simp only [List.forall_mem_map, ne_eq, reduceCtorEq, not_false_eq_true, true_imp_iff]
      tauto
  rw [cutStableDt, faces_rows, hrow, ← forEachIndex_rows]
  simp only [le_top, true_and]
  refine and_congr_right fun _ => ?_
  have hst := mem_first_stencils W hW b d
  constructor
  · intro h f hf
    have e : shift (shift f d (-(W : ℤ))) d W = f := by
      funext e; by_cases he : e = d
      · subst he; simp [shift]
      · simp [shift, he]
    have := h (shift f d (-W)) ((hst _).2 (by rw [e]; exact hf))
    rwa [e] at this
  · intro h i hi
    have e : shift (shift i d (W : ℤ)) d (-W) = i := by
      funext e; by_cases he : e = d
      · subst he; simp [shift]
      · simp [shift, he]
    have := h (shift i d W) ((hst i).1 hi)
    rwa [e] at this

theorem mem_of_le_iff {α : Type} [LinearOrder α] [OrderTop α] (l : List α) (x : α) (h : ∀ r, r ≤ x ↔ ∀ y ∈ l, r ≤ y) : x = ⊤ ∨ x ∈ l := by
  have hm : ∀ (l : List α) (a : α), l.foldl min a = a ∨ l.foldl min a ∈ l := by
    intro l
    induction l with
    | nil => intro a; left; rfl
    | cons y l ih =>
      intro a
      rcases ih (min a y) with h | h
      · rcases min_choice a y with hc | hc
        · left; simp only [List.foldl_cons]; rw [h, hc]
        · right; simp only [List.foldl_cons]; rw [h, hc]; exact List.mem_cons_self
      · right; exact List.mem_cons_of_mem _ h
  have he : x = l.foldl min ⊤ := eq_of_forall_le_iff fun r => by rw [h, le_foldl_min]; simp
  rw [he]; exact hm l ⊤

/-- The time step of a patch is infinite, the largest double or the value of one of its faces. -/
theorem cutStableDt_mem {n : ℕ} (w : ℕ) (hw : 0 < w) (big : K) (W : ℕ) (hW : 0 < W) (b : IndexBox (n + 1)) (d : Fin (n + 1))
    (face : Index (n + 1) → K) (dtAt : K → Index (n + 1) → K) :
    cutStableDt w hw big W b d face dtAt = ⊤ ∨ cutStableDt w hw big W b d face dtAt = (big : WithTop K) ∨
    ∃ f : Index (n + 1), (∀ k : ℤ, -W ≤ k → k < W → shift f d k ∈ b.toSet) ∧
      cutStableDt w hw big W b d face dtAt = (dtAt (face f) (shift f d (-W)) : WithTop K) := by
  have e : ∀ f : Index (n + 1), shift (shift f d (-(W : ℤ))) d W = f := by
    intro f; funext e; by_cases he : e = d
    · subst he; simp [shift]
    · simp [shift, he]
  have e' : ∀ f : Index (n + 1), shift (shift f d (W : ℤ)) d (-W) = f := by
    intro f; funext e; by_cases he : e = d
    · subst he; simp [shift]
    · simp [shift, he]
  have h := mem_of_le_iff ((if boxRows (b.shrink d 0 (2 * (W : ℤ) - 1)) ≠ [] then [(big : WithTop K)] else []) ++
    (forEachIndex (b.shrink d 0 (2 * (W : ℤ) - 1))).map fun i => (dtAt (face (shift i d W)) i : WithTop K)) (cutStableDt w hw big W b d face dtAt) ?_
  · rcases h with h | h
    · exact Or.inl h
    · rw [List.mem_append] at h
      rcases h with h | h
      · right; left
        split_ifs at h
        · simpa using h
        · simp at h
      · right; right
        obtain ⟨i, hi, h⟩ := List.mem_map.1 h
        exact ⟨shift i d W, (mem_first_stencils W hW b d i).1 hi, by rw [e', h]⟩
  · intro r
    rw [cutStableDt_spec w hw big W hW, List.forall_mem_append, List.forall_mem_map]
    refine and_congr ?_ ⟨fun h i hi => ?_, fun h f hf => ?_⟩
    · split_ifs with hr <;> simp [hr]
    · have := h _ ((mem_first_stencils W hW b d i).1 hi)
      rwa [e'] at this
    · have := h (shift f d (-W)) ((mem_first_stencils W hW b d _).2 (by rw [e]; exact hf))
      rwa [e] at this

theorem stableDtSimd_mem {n : ℕ} (w : ℕ) (hw : 0 < w) (S : ℕ) (hS : 0 < S) (b : IndexBox (n + 1)) (d : Fin (n + 1)) (dtAt : Index (n + 1) → K) :
    stableDtSimd w hw S b d dtAt = ⊤ ∨ ∃ i ∈ stencils S b d, stableDtSimd w hw S b d dtAt = (dtAt i : WithTop K) := by
  have h := mem_of_le_iff ((forEachIndex (b.shrink d 0 ((S : ℤ) - 1))).map fun i => (dtAt i : WithTop K)) (stableDtSimd w hw S b d dtAt) ?_
  · rcases h with h | h
    · exact Or.inl h
    · obtain ⟨i, hi, h⟩ := List.mem_map.1 h
      exact Or.inr ⟨i, (mem_stencils S hS b d i).2 (((forEachIndex_spec _).1 i).1 hi), h.symm⟩
  · intro r
    rw [le_isGLB_iff (stableDtSimd_spec w hw S hS b d dtAt)]
    simp only [List.forall_mem_map, (forEachIndex_spec _).1, mem_lowerBounds, Set.forall_mem_image, mem_stencils S hS b d]

/-! ## The HLL method -/

section Hll
variable [IsStrictOrderedRing K]

theorem signals_le_max (signals : List K) (a : K) : a ≤ signals.foldl (fun x y => max x |y|) a ∧ ∀ s ∈ signals, |s| ≤ signals.foldl (fun x y => max x |y|) a := by
  induction signals generalizing a with
  | nil => simp
  | cons x l ih =>
    have h := ih (max a |x|)
    simp only [List.foldl_cons, List.forall_mem_cons]
    exact ⟨(le_max_left _ _).trans h.1, (le_max_right _ _).trans h.1, h.2⟩

/-- The value of an open face: no wave of the face crosses a cell in this time. The value of a closed face does not depend on the waves. -/
theorem hllMaskedDt_spec (big dx β : K) (hdx : 0 ≤ dx) (signals : List K) :
    (0 < β → ∀ r, r ≤ hllMaskedDt big dx β signals → ∀ s ∈ signals, r * |s| ≤ dx) ∧
    (0 < β → 0 < dx → (∃ s ∈ signals, s ≠ 0) → 0 < hllMaskedDt big dx β signals ∧ ∃ s ∈ signals, hllMaskedDt big dx β signals * |s| = dx) ∧
    (¬ 0 < β → hllMaskedDt big dx β signals = big) := by
  have hm := signals_le_max signals (0 : K)
  have hatt : ∀ (l : List K) (a : K), l.foldl (fun x y => max x |y|) a = a ∨ ∃ s ∈ l, l.foldl (fun x y => max x |y|) a = |s| := by
    intro l
    induction l with
    | nil => intro a; left; rfl
    | cons x l ih =>
      intro a
      rcases ih (max a |x|) with h | ⟨s, hs, h⟩
      · rcases max_choice a |x| with hc | hc
        · left; simp only [List.foldl_cons]; rw [h, hc]
        · right; exact ⟨x, List.mem_cons_self, by simp only [List.foldl_cons]; rw [h, hc]⟩
      · right; exact ⟨s, List.mem_cons_of_mem _ hs, by simpa only [List.foldl_cons] using h⟩
  have hatt := hatt signals 0
  unfold hllMaskedDt
  generalize signals.foldl (fun x y => max x |y|) 0 = m at hm hatt
  refine ⟨?_, ?_, ?_⟩
  · intro hβ r hr s hs
    simp only [hβ, if_true] at hr
    have hs1 := hm.2 s hs
    rcases hm.1.lt_or_eq with h0 | h0
    · rw [le_div_iff₀ h0] at hr
      by_cases hr0 : 0 ≤ r
      · exact (mul_le_mul_of_nonneg_left hs1 hr0).trans hr
      · exact (mul_nonpos_of_nonpos_of_nonneg (le_of_not_ge hr0) (abs_nonneg s)).trans hdx
    · rw [← h0] at hs1
      rw [le_antisymm hs1 (abs_nonneg s), mul_zero]; exact hdx
  · rintro hβ hdx ⟨s, hs, hs0⟩
    simp only [hβ, if_true]
    have hpos : 0 < m := (abs_pos.2 hs0).trans_le (hm.2 s hs)
    refine ⟨div_pos hdx hpos, ?_⟩
    rcases hatt with h | ⟨q, hq, h⟩
    · exact absurd h hpos.ne'
    · exact ⟨q, hq, by rw [← h]; field_simp⟩
  · intro hβ; simp [hβ]

end Hll

/-! ## The level -/

/-- A number is below the time step of a level exactly if it is below the time steps of its patches that contain gas. -/
theorem cutLevelDt_le {n : ℕ} (w : ℕ) (hw : 0 < w) (big : K) (W gcw : ℕ) (d : Fin (n + 1)) (face : Index (n + 1) → K) (dtAt : K → Index (n + 1) → K)
    (openDt : Index (n + 1) → K) (tiles : List (CutTile (n + 1))) (r : WithTop K) :
    r ≤ cutLevelDt w hw big W gcw d face dtAt openDt tiles ↔ ∀ t ∈ tiles,
      (t.kind = .singlevalued → r ≤ cutStableDt w hw big W (cellsAndFaces t.scratch t.tile gcw d).1.toIndexBox d face dtAt) ∧
      (t.kind = .regular → r ≤ stableDtSimd w hw (2 * W) (cellsAndFaces t.scratch t.tile gcw d).1.toIndexBox d openDt) := by
  have h : ∀ (acc : WithTop K), r ≤ tiles.foldl (fun acc t =>
      let cells := (cellsAndFaces t.scratch t.tile gcw d).1.toIndexBox
      match t.kind with
      | .singlevalued => min acc (cutStableDt w hw big W cells d face dtAt)
      | .regular => min acc (stableDtSimd w hw (2 * W) cells d openDt)
      | .covered => acc) acc ↔ r ≤ acc ∧ ∀ t ∈ tiles,
      (t.kind = .singlevalued → r ≤ cutStableDt w hw big W (cellsAndFaces t.scratch t.tile gcw d).1.toIndexBox d face dtAt) ∧
      (t.kind = .regular → r ≤ stableDtSimd w hw (2 * W) (cellsAndFaces t.scratch t.tile gcw d).1.toIndexBox d openDt) := by
    induction tiles with
    | nil => intro acc; simp
    | cons t tiles ih =>
      intro acc
      rw [List.foldl_cons, ih, List.forall_mem_cons]
      rcases hk : t.kind <;> simp [and_assoc]
  exact (h ⊤).trans (by simp)

theorem mem_cells {n : ℕ} (t : CutTile (n + 1)) (W gcw : ℕ) (hg : W ≤ gcw) (d : Fin (n + 1)) (f : Index (n + 1)) (hf : t.tile.mem f)
    (hs : ∀ k : ℤ, -W ≤ k → k < W → t.scratch.mem (shift f d k)) (k : ℤ) (k1 : -W ≤ k) (k2 : k < W) :
    shift f d k ∈ (cellsAndFaces t.scratch t.tile gcw d).1.toIndexBox.toSet := by
  intro e
  obtain ⟨b1, b2, -, -⟩ := cellsAndFaces_bounds t.scratch t.tile gcw d e
  have h1 := hf e
  have h2 := hs k k1 k2 e
  have hsh : shift f d k e = if e = d then f e + k else f e := shift_apply f d k e
  rw [hsh] at h2
  simp only [PatchBox.toIndexBox, b1, b2]
  rw [hsh]
  split_ifs at h2 ⊢ with he <;> omega

section Level
variable [IsStrictOrderedRing K]

/-- **C182.** The time step that the cut-cell methods return for a level in a direction: at every face of a patch that contains gas, unless the geometry closes
the face, no wave travels further than one cell, provided that the data for the stencil of the face exists; `signals i` are the speeds the method computes
from the stencil that begins with the cell `i`. -/
theorem cut_step_stable {n : ℕ} (w : ℕ) (hw : 0 < w) (big dx : K) (hdx : 0 ≤ dx) (W gcw : ℕ) (hW : 0 < W) (hg : W ≤ gcw) (d : Fin (n + 1))
    (face : Index (n + 1) → K) (signals : Index (n + 1) → List K) (tiles : List (CutTile (n + 1))) (dt : K)
    (hdt : cutLevelDt w hw big W gcw d face (fun β i => hllMaskedDt big dx β (signals i)) (fun i => hllMaskedDt big dx 1 (signals i)) tiles = (dt : WithTop K))
    (t : CutTile (n + 1)) (ht : t ∈ tiles) (hc : t.kind ≠ .covered) (f : Index (n + 1)) (hf : t.tile.mem f)
    (hs : ∀ k : ℤ, -W ≤ k → k < W → t.scratch.mem (shift f d k)) (ho : t.kind = .singlevalued → 0 < face f) :
    ∀ s ∈ signals (shift f d (-W)), dt * |s| ≤ dx := by
  have h := (cutLevelDt_le w hw big W gcw d face _ _ tiles (dt : WithTop K)).1 hdt.ge t ht
  have hm := mem_cells t W gcw hg d f hf hs
  rcases hk : t.kind
  · exact absurd hk hc
  · have h2 := h.2 hk
    have h3 := (stableDtSimd_spec w hw (2 * W) (by omega) (cellsAndFaces t.scratch t.tile gcw d).1.toIndexBox d
      (fun i => hllMaskedDt big dx 1 (signals i))).1
    have hi : shift f d (-W) ∈ stencils (2 * W) (cellsAndFaces t.scratch t.tile gcw d).1.toIndexBox d := by
      intro k hk
      have := hm (k - W) (by omega) (by omega)
      convert this using 1
      funext e; by_cases he : e = d
      · subst he; simp [shift]; ring
      · simp [shift, he]
    have h4 := h2.trans (h3 ⟨_, hi, rfl⟩)
    exact (hllMaskedDt_spec big dx 1 hdx _).1 one_pos dt (WithTop.coe_le_coe.1 h4)
  · have h2 := ((cutStableDt_spec w hw big W hW _ d face _ _).1 (h.1 hk)).2 f hm
    exact (hllMaskedDt_spec big dx (face f) hdx _).1 (ho hk) dt (WithTop.coe_le_coe.1 h2)

/-- **C182 (positive).** If every open face has a wave that moves, the time step of the level is positive. -/
theorem cut_step_positive {n : ℕ} (w : ℕ) (hw : 0 < w) (big dx : K) (hbig : 0 < big) (hdx : 0 < dx) (W gcw : ℕ) (hW : 0 < W) (d : Fin (n + 1))
    (face : Index (n + 1) → K) (signals : Index (n + 1) → List K) (tiles : List (CutTile (n + 1)))
    (hmove : ∀ i, (∃ s ∈ signals i, s ≠ 0) ∨ ((∀ t ∈ tiles, t.kind ≠ .regular) ∧ ¬ 0 < face (shift i d W))) :
    (0 : WithTop K) < cutLevelDt w hw big W gcw d face (fun β i => hllMaskedDt big dx β (signals i)) (fun i => hllMaskedDt big dx 1 (signals i)) tiles := by
  have e : ∀ f : Index (n + 1), shift (shift f d (-(W : ℤ))) d W = f := by
    intro f; funext e; by_cases he : e = d
    · subst he; simp [shift]
    · simp [shift, he]
  have hcut : ∀ b : IndexBox (n + 1), (0 : WithTop K) < cutStableDt w hw big W b d face (fun β i => hllMaskedDt big dx β (signals i)) := by
    intro b
    rcases cutStableDt_mem w hw big W hW b d face (fun β i => hllMaskedDt big dx β (signals i)) with h | h | ⟨f, -, h⟩
    · rw [h]; exact WithTop.coe_lt_top 0
    · rw [h]; exact WithTop.coe_lt_coe.2 hbig
    · rw [h]
      refine WithTop.coe_lt_coe.2 ?_
      by_cases ho : 0 < face f
      · rcases hmove (shift f d (-W)) with hm | ⟨-, hm⟩
        · exact ((hllMaskedDt_spec big dx (face f) hdx.le _).2.1 ho hdx hm).1
        · rw [e] at hm; exact absurd ho hm
      · rw [(hllMaskedDt_spec big dx (face f) hdx.le _).2.2 ho]; exact hbig
  have hreg : (∃ t ∈ tiles, t.kind = .regular) → ∀ b : IndexBox (n + 1),
      (0 : WithTop K) < stableDtSimd w hw (2 * W) b d (fun i => hllMaskedDt big dx 1 (signals i)) := by
    rintro ⟨t, ht, hk⟩ b
    rcases stableDtSimd_mem w hw (2 * W) (by omega) b d (fun i => hllMaskedDt big dx 1 (signals i)) with h | ⟨i, -, h⟩
    · rw [h]; exact WithTop.coe_lt_top 0
    · rw [h]
      refine WithTop.coe_lt_coe.2 ?_
      rcases hmove i with hm | ⟨hm, -⟩
      · exact ((hllMaskedDt_spec big dx 1 hdx.le _).2.1 one_pos hdx hm).1
      · exact absurd hk (hm t ht)
  rw [← not_le]
  intro hle
  unfold cutLevelDt at hle
  have key : ∀ (l : List (CutTile (n + 1))) (acc : WithTop K), (∀ t ∈ l, t ∈ tiles) → 0 < acc → 0 < l.foldl (fun acc t =>
      let cells := (cellsAndFaces t.scratch t.tile gcw d).1.toIndexBox
      match t.kind with
      | .singlevalued => min acc (cutStableDt w hw big W cells d face (fun β i => hllMaskedDt big dx β (signals i)))
      | .regular => min acc (stableDtSimd w hw (2 * W) cells d (fun i => hllMaskedDt big dx 1 (signals i)))
      | .covered => acc) acc := by
    intro l
    induction l with
    | nil => intro acc _ h; exact h
    | cons t l ih =>
      intro acc hl h
      refine ih _ (fun t ht => hl t (List.mem_cons_of_mem _ ht)) ?_
      rcases hk : t.kind <;> simp only [hk]
      · exact h
      · exact lt_min h (hreg ⟨t, hl t List.mem_cons_self, hk⟩ _)
      · exact lt_min h (hcut _)
  exact absurd hle (not_le.2 (key tiles ⊤ (fun t ht => ht) (WithTop.coe_lt_top 0)))

/-- **C182 (closed faces).** The states next to faces that the geometry closes have no influence on the time step of a cut patch: two patches with the same speeds
at the open faces have the same time step. -/
theorem cut_step_closed {n : ℕ} (w : ℕ) (hw : 0 < w) (big dx : K) (hdx : 0 ≤ dx) (W : ℕ) (hW : 0 < W) (b : IndexBox (n + 1)) (d : Fin (n + 1))
    (face : Index (n + 1) → K) (signals signals' : Index (n + 1) → List K) (hs : ∀ f, 0 < face f → signals (shift f d (-W)) = signals' (shift f d (-W))) :
    cutStableDt w hw big W b d face (fun β i => hllMaskedDt big dx β (signals i)) = cutStableDt w hw big W b d face (fun β i => hllMaskedDt big dx β (signals' i)) := by
  refine eq_of_forall_le_iff fun r => ?_
  rw [cutStableDt_spec w hw big W hW, cutStableDt_spec w hw big W hW]
  refine and_congr_right fun _ => forall_congr' fun f => imp_congr_right fun _ => ?_
  by_cases h : 0 < face f
  · rw [hs f h]
  · rw [(hllMaskedDt_spec big dx (face f) hdx _).2.2 h, (hllMaskedDt_spec big dx (face f) hdx _).2.2 h]

/-- **C182 (attained).** The time step of a cut patch is not needlessly small: it is the largest double, or infinite, or there is an open face of the patch one of whose waves
travels exactly one cell. -/
theorem cut_step_attained {n : ℕ} (w : ℕ) (hw : 0 < w) (big dx : K) (hdx : 0 < dx) (W : ℕ) (hW : 0 < W) (b : IndexBox (n + 1)) (d : Fin (n + 1))
    (face : Index (n + 1) → K) (signals : Index (n + 1) → List K)
    (hmove : ∀ f, 0 < face f → ∃ s ∈ signals (shift f d (-W)), s ≠ 0) (dt : K)
    (hdt : cutStableDt w hw big W b d face (fun β i => hllMaskedDt big dx β (signals i)) = (dt : WithTop K)) :
    dt = big ∨ ∃ f, (∀ k : ℤ, -W ≤ k → k < W → shift f d k ∈ b.toSet) ∧ 0 < face f ∧ ∃ s ∈ signals (shift f d (-W)), dt * |s| = dx := by
  rcases cutStableDt_mem w hw big W hW b d face (fun β i => hllMaskedDt big dx β (signals i)) with h | h | ⟨f, hf, h⟩
  · rw [hdt] at h; exact absurd h (WithTop.coe_ne_top)
  · rw [hdt] at h; exact Or.inl (WithTop.coe_inj.1 h)
  · rw [hdt] at h
    have h := WithTop.coe_inj.1 h
    by_cases ho : 0 < face f
    · right
      refine ⟨f, hf, ho, ?_⟩
      rw [h]
      exact ((hllMaskedDt_spec big dx (face f) hdx.le _).2.1 ho hdx (hmove f ho)).2
    · left; rw [h, (hllMaskedDt_spec big dx (face f) hdx.le _).2.2 ho]

end Level

/-! ## Example -/

/-- Four cells of which the last one lies behind a closed face and holds a fast state. -/
def exCutTile : CutTile 1 := ⟨.singlevalued, ⟨![0], ![3]⟩, ⟨![1], ![3]⟩⟩

def exCutFace : Index 1 → ℚ := fun i => if i 0 = 3 then 0 else if i 0 = 2 then 1 / 3 else 1

def exCutSignals : Index 1 → List ℚ := fun i => if i 0 = 2 then [-1000, 1000] else if i 0 = 1 then [-3, 5] else [-2, 4]

/-- The step of the example is set by the partly open face: the wave of speed 5 crosses a cell of width 1. -/
theorem exCut_step : cutLevelDt 2 (by decide) 1000000 1 2 0 exCutFace (fun β i => hllMaskedDt 1000000 1 β (exCutSignals i))
    (fun i => hllMaskedDt 1000000 1 1 (exCutSignals i)) [exCutTile, ⟨.covered, ⟨![4], ![7]⟩, ⟨![5], ![7]⟩⟩] = ((1 / 5 : ℚ) : WithTop ℚ) := by
  decide +kernel

example : ∀ s ∈ exCutSignals (shift ![2] 0 (-1)), (1 / 5 : ℚ) * |s| ≤ 1 :=
  cut_step_stable 2 (by decide) 1000000 1 (by decide) 1 2 (by decide) (by decide) 0 exCutFace exCutSignals _ (1 / 5) exCut_step exCutTile (by simp)
    (by decide) ![2] (by decide) (by intro k h1 h2; have : k = -1 ∨ k = 0 := by omega
                                     rcases this with rfl | rfl <;> decide) (by intro _; decide +kernel)


theorem exCut_moves (i : Index 1) : ∃ s ∈ exCutSignals i, s ≠ 0 := by
  unfold exCutSignals
  split_ifs
  · exact ⟨1000, by simp, by decide +kernel⟩
  · exact ⟨5, by simp, by decide +kernel⟩
  · exact ⟨4, by simp, by decide +kernel⟩

example : (0 : WithTop ℚ) < cutLevelDt 2 (by decide) 1000000 1 2 0 exCutFace (fun β i => hllMaskedDt 1000000 1 β (exCutSignals i))
    (fun i => hllMaskedDt 1000000 1 1 (exCutSignals i)) [exCutTile] :=
  cut_step_positive 2 (by decide) 1000000 1 (by decide +kernel) (by decide +kernel) 1 2 (by decide) 0 exCutFace exCutSignals _ fun i => Or.inl (exCut_moves i)

example : (1 / 5 : ℚ) = 1000000 ∨ ∃ f : Index 1, (∀ k : ℤ, -((1 : ℕ) : ℤ) ≤ k → k < ((1 : ℕ) : ℤ) → shift f 0 k ∈ (⟨![0], ![4]⟩ : IndexBox 1).toSet) ∧ 0 < exCutFace f ∧
    ∃ s ∈ exCutSignals (shift f 0 (-((1 : ℕ) : ℤ))), (1 / 5 : ℚ) * |s| = 1 :=
  cut_step_attained 2 (by decide) 1000000 1 (by decide +kernel) 1 (by decide) ⟨![0], ![4]⟩ 0 exCutFace exCutSignals (fun f _ => exCut_moves _) (1 / 5)
    (by decide +kernel)

/-- **C182 (limit).** When the geometry closes every face of a cut patch that has a row of stencils, the time step is the largest double and not infinite. -/
theorem cut_step_all_closed : cutStableDt 2 (by decide) (1000000 : ℚ) 1 ⟨![0], ![4]⟩ 0 (fun _ => 0) (fun β i => hllMaskedDt 1000000 1 β (exCutSignals i)) =
    ((1000000 : ℚ) : WithTop ℚ) := by
  decide +kernel

end Fub
