import Verif.Spec.CutAmr
import Verif.Props.RegridData
import Mathlib.Algebra.Order.BigOperators.Ring.Finset
import Mathlib.Data.List.Perm.Basic
import Mathlib.Data.Fin.VecNotation
import Mathlib.Tactic.LinearCombination
import Mathlib.Algebra.BigOperators.Fin

/-!
C162 (averaging next to walls), C163 (regridding next to walls), C164 (grids without gas).
-/

namespace Fub
open Finset
variable {n : ℕ} {K : Type}

section
variable [Field K] [LinearOrder K] [IsStrictOrderedRing K]

theorem ebMean_mul (r : Index n) (w u : Index n → K) (hw : ∀ i, 0 ≤ w i) (I : Index n) :
    (∑ i ∈ childCells r I, w i) * ebMean r w u I = ∑ i ∈ childCells r I, w i * u i := by
  unfold ebMean
  split_ifs with h
  · rw [h, zero_mul]
    symm
    refine Finset.sum_eq_zero fun i hi => ?_
    rw [(Finset.sum_eq_zero_iff_of_nonneg fun i _ => hw i).1 h i hi, zero_mul]
  · field_simp

/-- **C162.** After the initialisation every covered cell holds the mean over the gas in its fine cells for every conserved component, the amount of gas in the cells that are not covered is unchanged, and so are the finest level and all cells without finer ones. -/
theorem eb_initialize_means {first size c : ℕ} (hc : first ≤ c ∧ c < first + size) (al : ℕ → Index n → K) (hal : ∀ k i, 0 ≤ al k i) (k : ℕ) (l : GridLevel n K) (fs : List (GridLevel n K)) :
    ∃ l' fs', ebInitialize first size al k (l :: fs) = l' :: fs' ∧ l'.cells = l.cells ∧ AllGasPairs (HoldsGasMean (fun _ => 2) c) al k l' fs'
      ∧ ∀ vol : K, gasTotal (fun _ => 2) c al k vol (l' :: fs') = gasTotal (fun _ => 2) c al k vol (l :: fs) := by
  induction fs generalizing l k with
  | nil => exact ⟨l, [], rfl, rfl, trivial, fun _ => rfl⟩
  | cons f fs ih =>
    obtain ⟨f', fs', h1, h2, h3, h4⟩ := ih (k + 1) f
    refine ⟨ebAverageDown first size true (al (k + 1)) f' l, f' :: fs', ?_, rfl, ⟨?_, h3⟩, fun vol => ?_⟩
    · rw [ebInitialize, h1]
    · intro I _ hsub
      simp only [ebAverageDown, hc, hsub, and_self, if_true]
      exact ebMean_mul _ _ _ (hal _) I
    · rw [gasTotal, gasTotal, h4, h2]
      congr 1
      refine Finset.sum_congr rfl fun I hI => ?_
      have := (Finset.mem_filter.1 hI).2
      simp only [ebAverageDown, h2, this, and_false, if_false]

/-- **C162.** What is in covered fine cells does not matter for the initialisation, and the mean lies between the values of the open fine cells. -/
theorem eb_initialize_bounds {first size c : ℕ} (hc : first ≤ c ∧ c < first + size) (al : Index n → K) (hal : ∀ i, 0 ≤ al i) (l f : GridLevel n K) (I : Index n)
    (hsub : childCells (fun _ => 2) I ⊆ f.cells) (hopen : ∃ i ∈ childCells (fun _ => 2) I, 0 < al i) (a b : K)
    (hb : ∀ i ∈ childCells (fun _ => 2) I, 0 < al i → a ≤ f.val i c ∧ f.val i c ≤ b) :
    a ≤ (ebAverageDown first size true al f l).val I c ∧ (ebAverageDown first size true al f l).val I c ≤ b := by
  obtain ⟨i0, hi0, hp⟩ := hopen
  have hs : 0 < ∑ i ∈ childCells (fun _ => 2) I, al i := Finset.sum_pos' (fun i _ => hal i) ⟨i0, hi0, hp⟩
  simp only [ebAverageDown, hc, hsub, and_self, if_true, ebMean, hs.ne', if_false]
  rw [le_div_iff₀ hs, div_le_iff₀ hs, Finset.mul_sum, Finset.mul_sum]
  constructor <;> refine Finset.sum_le_sum fun i hi => ?_
  · rcases (hal i).eq_or_lt with h | h
    · rw [← h]; simp
    · rw [mul_comm]; exact mul_le_mul_of_nonneg_left (hb i hi h).1 h.le
  · rcases (hal i).eq_or_lt with h | h
    · rw [← h]; simp
    · rw [mul_comm b]; exact mul_le_mul_of_nonneg_left (hb i hi h).2 h.le

/-- **C162 (part).** Coarsening during a run gives the mean over the gas in those cells whose fine cells all have the same volume fraction, for instance in cells that the wall does not cut. Missing: cells at the wall, see `eb_coarsen_wrong`. -/
theorem eb_coarsen_partial {first size c : ℕ} (hc : first ≤ c ∧ c < first + size) (al : Index n → K) (l f : GridLevel n K) (I : Index n)
    (hsub : childCells (fun _ => 2) I ⊆ f.cells) (a : K) (ha : ∀ i ∈ childCells (fun _ => 2) I, al i = a) :
    (∑ i ∈ childCells (fun _ => 2) I, al i) * (ebCoarsen first size al f l).val I c = ∑ i ∈ childCells (fun _ => 2) I, al i * f.val i c := by
  have hm := ebMean_mul (fun _ => 2) (fun _ => (1 : K)) (fun i => f.val i c) (fun _ => zero_le_one) I
  simp only [one_mul] at hm
  simp only [ebCoarsen, ebAverageDown, hc, hsub, and_self, if_true, Bool.false_eq_true, if_false]
  have e : ∑ i ∈ childCells (fun _ => 2) I, al i * f.val i c = a * ∑ i ∈ childCells (fun _ => 2) I, f.val i c := by
    rw [Finset.mul_sum]; exact Finset.sum_congr rfl fun i hi => by rw [ha i hi]
  rw [Finset.sum_congr rfl ha, e, ← hm, Finset.sum_const, Finset.sum_const, nsmul_eq_mul, nsmul_eq_mul, mul_one]
  ring

/-- **C162.** Coarsening during a run counts every fine cell alike: the coarse value is the mean over all fine cells, whatever the volume fractions are. -/
theorem eb_coarsen_plain {first size c : ℕ} (hc : first ≤ c ∧ c < first + size) (al : Index n → K) (l f : GridLevel n K) (I : Index n) (hsub : childCells (fun _ => 2) I ⊆ f.cells) :
    (ebCoarsen first size al f l).val I c = (∑ i ∈ childCells (fun _ => 2) I, f.val i c) / 2 ^ n := by
  have h : (∑ _i ∈ childCells (fun _ => 2) I, (1 : K)) = 2 ^ n := by
    rw [Finset.sum_const, nsmul_eq_mul, mul_one, childCells_cardK (fun _ => two_pos)]
    simp
  simp only [ebCoarsen, ebAverageDown, hc, hsub, and_self, if_true, Bool.false_eq_true, if_false, ebMean, h, one_mul]
  rw [if_neg (by positivity)]

end

/-- **C162.** (Disagreement.) A coarse cell half of which is gas: the fine cells with gas hold `1`, the ones inside of the wall hold `0`. Coarsening during a run halves the density of the gas, the initialisation does not. -/
theorem eb_coarsen_wrong : ∃ (al : Index 1 → ℚ) (l f : GridLevel 1 ℚ), (∀ i, 0 ≤ al i ∧ al i ≤ 1) ∧ NestedIn (fun _ => 2) l f ∧ (∀ i ∈ f.cells, 0 < al i → f.val i 0 = 1)
    ∧ (ebCoarsen 0 1 al f l).val (fun _ => 0) 0 = 1 / 2 ∧ (ebAverageDown 0 1 true al f l).val (fun _ => 0) 0 = 1 := by
  refine ⟨fun i => if i 0 = 0 then 1 else 0, ⟨{fun _ => 0}, fun _ _ => 7⟩, ⟨{fun _ => 0, fun _ => 1}, fun i _ => if i 0 = 0 then 1 else 0⟩, ?_, ?_, ?_, by decide +kernel, by decide +kernel⟩
  · intro i; dsimp only; split_ifs <;> norm_num
  · intro i hi
    simp only [Finset.mem_insert, Finset.mem_singleton] at hi
    rcases hi with rfl | rfl <;> exact ⟨by decide +kernel, by decide +kernel⟩
  · intro i _ h
    dsimp only at h ⊢
    split_ifs at h ⊢ with h0
    · rfl
    · exact absurd h (lt_irrefl _)

section
variable [Field K] [LinearOrder K] [IsStrictOrderedRing K]

omit [IsStrictOrderedRing K] in
theorem gas_mean_step {r : Index n} (hr : ∀ d, 0 < r d) {c : ℕ} (al : Index n → K) {l l' f f' : GridLevel n K} (hn : NestedIn r l f) (hm : HoldsGasMean r c al l f) (hk : KeepsOld c l l')
    (hf : ∀ i ∈ f'.cells, f'.val i c = if i ∈ f.cells then f.val i c else l'.val (coarsenIdx r i) c) : HoldsGasMean r c al l' f' := by
  intro I hI hsub
  by_cases hold : ∃ i ∈ childCells r I, i ∈ f.cells
  · obtain ⟨i, hi, hif⟩ := hold
    have e := (mem_childCells hr).1 hi
    obtain ⟨h1, h2⟩ := hn i hif
    rw [e] at h1 h2
    rw [hk I h1, hm I h1 h2]
    refine Finset.sum_congr rfl fun j hj => ?_
    rw [hf j (hsub hj), if_pos (h2 hj)]
  · push Not at hold
    rw [Finset.sum_mul]
    refine Finset.sum_congr rfl fun i hi => ?_
    rw [hf i (hsub hi), if_neg (hold i hi), (mem_childCells hr).1 hi]

omit [IsStrictOrderedRing K] in
theorem gas_mean_same {r : Index n} (hr : ∀ d, 0 < r d) {c : ℕ} (al : Index n → K) {l l' f : GridLevel n K} (hn : NestedIn r l f) (hm : HoldsGasMean r c al l f) (hk : KeepsOld c l l') :
    HoldsGasMean r c al l' f := by
  intro I hI hsub
  obtain ⟨i, hi⟩ := childCells_nonempty hr I
  have h1 := (hn i (hsub hi)).1
  rw [(mem_childCells hr).1 hi] at h1
  rw [hk I h1]; exact hm I h1 hsub

/-- A level is only created where there is none: AMReX calls `MakeNewLevelFromCoarse` for levels beyond the finest one. -/
def CreatesBeyond : List (GridAct n K) → List (GridLevel n K) → Prop
  | .create _ _ :: as, fs => fs = [] ∧ CreatesBeyond as []
  | _ :: as, fs => CreatesBeyond as fs.tail
  | [], _ => True

omit [IsStrictOrderedRing K] in
/-- **C163.** A regrid keeps the property that every covered cell holds the mean over the gas in its fine cells, on all levels and for all volume fractions. -/
theorem eb_regrid_means {first size c : ℕ} (hc : first ≤ c ∧ c < first + size) (al : ℕ → Index n → K) (k : ℕ) (l l' : GridLevel n K)
    (acts : List (GridAct n K)) (fs : List (GridLevel n K)) (hb : CreatesBeyond acts fs)
    (hn : AllPairs (NestedIn (fun _ => 2)) l fs) (hm : AllGasPairs (HoldsGasMean (fun _ => 2) c) al k l fs) (hk : KeepsOld c l l') :
    AllGasPairs (HoldsGasMean (fun _ => 2) c) al k l' (ebRegrid first size l' acts fs) := by
  have hr : ∀ d : Fin n, 0 < (fun _ => 2 : Index n) d := fun _ => two_pos
  induction acts generalizing l l' fs k with
  | nil =>
    cases fs with
    | nil => trivial
    | cons f fs => exact ⟨gas_mean_same hr _ hn.1 hm.1 hk, hm.2⟩
  | cons a as ih =>
    cases a with
    | same =>
      cases fs with
      | nil => trivial
      | cons f fs => exact ⟨gas_mean_same hr _ hn.1 hm.1 hk, ih _ f f fs hb hn.2 hm.2 fun _ _ => rfl⟩
    | remake cells =>
      cases fs with
      | nil => trivial
      | cons f fs => exact ⟨gas_mean_step hr _ hn.1 hm.1 hk fun i _ => rfl, ih _ f _ fs hb hn.2 hm.2 (remake_keeps _ _ _ _ _)⟩
    | clear => cases fs <;> trivial
    | create cells junk =>
      obtain ⟨h0, hb'⟩ := hb
      subst h0
      refine ⟨?_, ih _ (newLevelFromCoarse first size l' cells junk) _ [] hb' trivial trivial fun _ _ => rfl⟩
      intro I _ _
      rw [Finset.sum_mul]
      refine Finset.sum_congr rfl fun i h => ?_
      simp only [newLevelFromCoarse, interpCons, hc, and_self, if_true]
      rw [(mem_childCells hr).1 h]

/-- **C163.** With one geometry for all levels and mean values over the gas in the covered cells, the amount of gas in all visible cells is that of the coarsest level alone. -/
theorem eb_composite_total {r : Index n} (hr : ∀ d, 0 < r d) (c : ℕ) (al : ℕ → Index n → K) (hg : OneGeometry r al) (k : ℕ) (vol : K) (l : GridLevel n K) (fs : List (GridLevel n K))
    (hn : AllPairs (NestedIn r) l fs) (hm : AllGasPairs (HoldsGasMean r c) al k l fs) : gasTotal r c al k vol (l :: fs) = ∑ I ∈ l.cells, vol * al k I * l.val I c := by
  induction fs generalizing l vol k with
  | nil => rfl
  | cons f fs ih =>
    rw [gasTotal, ih _ _ f hn.2 hm.2, sum_fine_cells hr hn.1, ← Finset.sum_filter_add_sum_filter_not l.cells (fun I => childCells r I ⊆ f.cells) (fun I => vol * al k I * l.val I c), add_comm]
    congr 1
    refine Finset.sum_congr rfl fun I hI => ?_
    obtain ⟨h1, h2⟩ := Finset.mem_filter.1 hI
    have hp : (∏ d, (r d : K)) ≠ 0 := Finset.prod_ne_zero_iff.2 fun d _ => by exact_mod_cast (hr d).ne'
    have := hm.1 I h1 h2
    rw [← hg k I] at this
    have e : ∑ i ∈ childCells r I, vol / (∏ d, (r d : K)) * al (k + 1) i * f.val i c = vol / (∏ d, (r d : K)) * ∑ i ∈ childCells r I, al (k + 1) i * f.val i c := by
      rw [Finset.mul_sum]; exact Finset.sum_congr rfl fun i _ => by ring
    rw [e, ← this]
    field_simp

/-- **C163 (part).** If the volume fractions of all levels describe one geometry, then a regrid does not change the amount of gas in the visible cells, whatever levels are remade, created or removed. Missing: the code builds the geometry of every level on its own, see `eb_geometries_differ` and `eb_regrid_wrong`. -/
theorem eb_regrid_partial {first size c : ℕ} (hc : first ≤ c ∧ c < first + size) (al : ℕ → Index n → K) (hg : OneGeometry (fun _ => 2) al) (k : ℕ) (l : GridLevel n K)
    (acts : List (GridAct n K)) (fs : List (GridLevel n K)) (hb : CreatesBeyond acts fs)
    (hn : AllPairs (NestedIn (fun _ => 2)) l fs) (hm : AllGasPairs (HoldsGasMean (fun _ => 2) c) al k l fs) (hn' : AllPairs (NestedIn (fun _ => 2)) l (ebRegrid first size l acts fs)) (vol : K) :
    gasTotal (fun _ => 2) c al k vol (l :: ebRegrid first size l acts fs) = gasTotal (fun _ => 2) c al k vol (l :: fs) := by
  have hr : ∀ d : Fin n, 0 < (fun _ => 2 : Index n) d := fun _ => two_pos
  rw [eb_composite_total hr c al hg k vol l fs hn hm, eb_composite_total hr c al hg k vol l _ hn' (eb_regrid_means hc al k l l acts fs hb hn hm fun _ _ => rfl)]

theorem clamp_half (t : K) : max 0 (min 1 t) * 2 = max 0 (min 1 (2 * t)) + max 0 (min 1 (2 * t - 1)) := by
  rcases le_total t 0 with h | h
  · rw [min_eq_right (by linarith), max_eq_left h, min_eq_right (by linarith), max_eq_left (by linarith), min_eq_right (by linarith), max_eq_left (by linarith)]; ring
  · rcases le_total t (1 / 2) with h2 | h2
    · rw [min_eq_right (by linarith), max_eq_right h, min_eq_right (by linarith), max_eq_right (by linarith), min_eq_right (by linarith), max_eq_left (by linarith)]; ring
    · rcases le_total t 1 with h3 | h3
      · rw [min_eq_right h3, max_eq_right h, min_eq_left (by linarith), max_eq_right (by linarith), min_eq_right (by linarith), max_eq_right (by linarith)]; ring
      · rw [min_eq_left h3, max_eq_right (by linarith), min_eq_left (by linarith), max_eq_right (by linarith), min_eq_left (by linarith), max_eq_right (by linarith)]; ring

theorem sum_child2 (g : Index 2 → K) (I : Index 2) :
    ∑ i ∈ childCells (fun _ => 2) I, g i = g ![2 * I 0, 2 * I 1] + g ![2 * I 0, 2 * I 1 + 1] + g ![2 * I 0 + 1, 2 * I 1] + g ![2 * I 0 + 1, 2 * I 1 + 1] := by
  have h : childCells (fun _ => 2) I = {![2 * I 0, 2 * I 1], ![2 * I 0, 2 * I 1 + 1], ![2 * I 0 + 1, 2 * I 1], ![2 * I 0 + 1, 2 * I 1 + 1]} := by
    ext i
    simp only [childCells, Fintype.mem_piFinset, Finset.mem_Ico, Finset.mem_insert, Finset.mem_singleton, Fin.forall_fin_two, funext_iff, Matrix.cons_val_zero, Matrix.cons_val_one]
    omega
  rw [h, Finset.sum_insert, Finset.sum_insert, Finset.sum_insert, Finset.sum_singleton]
  · ring
  all_goals simp only [Finset.mem_insert, Finset.mem_singleton, funext_iff, Fin.forall_fin_two, Matrix.cons_val_zero, Matrix.cons_val_one]; omega

/-- **C163.** The levels have one geometry if the wall is flat and parallel to the mesh, at any height and for any number of levels. -/
theorem eb_flat_wall (h0 dx : K) (hdx : 0 < dx) : OneGeometry (fun _ => 2) (indexSpaces (fun _ => h0) dx) := by
  intro k I
  have hp : (0 : K) < dx / 2 ^ k := div_pos hdx (by positivity)
  have e : dx / 2 ^ (k + 1) = dx / 2 ^ k / 2 := by rw [pow_succ]; field_simp
  rw [sum_child2]
  simp only [indexSpaces, wallFrac, wallPart, e, Matrix.cons_val_zero, Matrix.cons_val_one, Fin.prod_univ_two]
  generalize dx / 2 ^ k = d at hp
  have c1 : h0 / (d / 2) - ((2 * I 1 : ℤ) : K) = 2 * (h0 / d - I 1) := by push_cast; field_simp
  have c2 : h0 / (d / 2) - ((2 * I 1 + 1 : ℤ) : K) = 2 * (h0 / d - I 1) - 1 := by push_cast; field_simp; ring
  rw [c1, c2]
  have := clamp_half (h0 / d - (I 1 : K))
  push_cast
  linear_combination 2 * this

/-- **C163.** The volume fraction of a cell whose two vertical faces are cut by the wall is the area below the straight line between the two cuts, divided by the area of the cell; it is one if the wall is above the cell on both faces and zero if it is below. -/
theorem eb_wall_fraction (h : K → K) (dx : K) (hdx : 0 < dx) (i : Index 2) :
    (i 1 * dx ≤ h (i 0 * dx) → h (i 0 * dx) ≤ (i 1 + 1) * dx → i 1 * dx ≤ h ((i 0 + 1) * dx) → h ((i 0 + 1) * dx) ≤ (i 1 + 1) * dx →
        wallFrac h dx i = dx * ((h (i 0 * dx) - i 1 * dx) + (h ((i 0 + 1) * dx) - i 1 * dx)) / 2 / (dx * dx))
      ∧ ((i 1 + 1) * dx ≤ h (i 0 * dx) → (i 1 + 1) * dx ≤ h ((i 0 + 1) * dx) → wallFrac h dx i = 1)
      ∧ (h (i 0 * dx) ≤ i 1 * dx → h ((i 0 + 1) * dx) ≤ i 1 * dx → wallFrac h dx i = 0) := by
  have key : ∀ y : K, (i 1 * dx ≤ y → y ≤ (i 1 + 1) * dx → wallPart y dx (i 1) = (y - i 1 * dx) / dx) ∧ ((i 1 + 1) * dx ≤ y → wallPart y dx (i 1) = 1) ∧ (y ≤ i 1 * dx → wallPart y dx (i 1) = 0) := by
    intro y
    have e : y / dx - (i 1 : K) = (y - i 1 * dx) / dx := by field_simp
    unfold wallPart
    rw [e]
    refine ⟨fun a b => ?_, fun a => ?_, fun a => ?_⟩
    · rw [min_eq_right ((div_le_one hdx).2 (by linarith)), max_eq_right (div_nonneg (by linarith) hdx.le)]
    · rw [min_eq_left ((one_le_div hdx).2 (by linarith)), max_eq_right zero_le_one]
    · have : (y - i 1 * dx) / dx ≤ 0 := div_nonpos_of_nonpos_of_nonneg (by linarith) hdx.le
      rw [min_eq_right (this.trans zero_le_one), max_eq_left this]
  refine ⟨fun a b c d => ?_, fun a b => ?_, fun a b => ?_⟩
  · unfold wallFrac
    rw [(key _).1 a b, (key _).1 c d]
    have := hdx.ne'
    field_simp
  · unfold wallFrac
    rw [(key _).2.1 a, (key _).2.1 b]; norm_num
  · unfold wallFrac
    rw [(key _).2.2 a, (key _).2.2 b]; norm_num

end

/-- The volume fraction of the first cell of the coarse level and of its fine cells for a curved wall `y = x² / 4` above the gas. -/
theorem eb_geometries_differ : ∃ (h : ℚ → ℚ) (dx : ℚ), 0 < dx ∧ ¬ OneGeometry (fun _ => 2) (indexSpaces h dx) := by
  refine ⟨fun x => x ^ 2 / 4, 1, by norm_num, fun hg => ?_⟩
  have := hg 0 (fun _ => 0)
  rw [sum_child2] at this
  revert this
  decide +kernel

/-- **C163.** (Disagreement.) A regrid that refines a cell at a curved wall changes the amount of gas at rest with density one, because the levels were built with different volumes. -/
theorem eb_regrid_wrong : ∃ (h : ℚ → ℚ) (dx : ℚ) (l : GridLevel 2 ℚ) (cells : Finset (Index 2)), 0 < dx ∧ NestedIn (fun _ => 2) l ⟨cells, fun _ _ => 0⟩ ∧ (∀ I c, l.val I c = 1)
    ∧ gasTotal (fun _ => 2) 0 (indexSpaces h dx) 0 1 (l :: ebRegrid 0 1 l [.create cells fun _ _ => 0] []) ≠ gasTotal (fun _ => 2) 0 (indexSpaces h dx) 0 1 [l] := by
  refine ⟨fun x => x ^ 2 / 4, 1, ⟨{![0, 0]}, fun _ _ => 1⟩, {![0, 0], ![0, 1], ![1, 0], ![1, 1]}, by norm_num, ?_, fun _ _ => rfl, by decide +kernel⟩
  intro i hi
  simp only [Finset.mem_insert, Finset.mem_singleton] at hi
  rcases hi with rfl | rfl | rfl | rfl <;> exact ⟨by decide +kernel, by decide +kernel⟩

section
variable [Field K] [LinearOrder K] [IsStrictOrderedRing K]

omit [Field K] [LinearOrder K] [IsStrictOrderedRing K] in
theorem sum_range_single (a x N : ℕ) : ((List.range N).map fun q => if a = q then x else 0).sum = if a < N then x else 0 := by
  induction N with
  | zero => simp
  | succ N ih =>
    rw [List.range_succ, List.map_append, List.sum_append, ih]
    simp only [List.map_cons, List.map_nil, List.sum_cons, List.sum_nil, add_zero]
    split_ifs <;> omega

omit [Field K] [LinearOrder K] [IsStrictOrderedRing K] in
theorem flatMap_filter_perm {α : Type} (f : α → ℕ) (p : α → Bool) (N : ℕ) (L : List α) (hL : ∀ b ∈ L, f b < N) :
    ((List.range N).flatMap fun q => (L.filter fun b => decide (f b = q)).filter p).Perm (L.filter p) := by
  classical
  rw [List.perm_iff_count]
  intro a
  rw [List.count_flatMap]
  have hc : ∀ q, ((List.count a) ∘ fun q => (L.filter fun b => decide (f b = q)).filter p) q = if f a = q then (L.filter p).count a else 0 := by
    intro q
    simp only [Function.comp]
    by_cases hp : p a = true
    · rw [List.count_filter hp, List.count_filter hp]
      by_cases hq : f a = q
      · rw [if_pos hq, List.count_filter (by simp [hq])]
      · rw [if_neg hq, List.count_eq_zero]; intro hm; exact hq (by simpa using (List.mem_filter.1 hm).2)
    · have h1 : ∀ M : List α, (M.filter p).count a = 0 := fun M => List.count_eq_zero.2 fun hm => hp (List.mem_filter.1 hm).2
      rw [h1, h1]; simp
  rw [List.map_congr_left fun q _ => hc q, sum_range_single]
  by_cases ha : a ∈ L
  · rw [if_pos (hL a ha)]
  · rw [List.count_eq_zero.2 fun h => ha (List.mem_filter.1 h).1]; simp

omit [IsStrictOrderedRing K] in
/-- **C164.** The base grids after the removal of grids without gas are, in some order, exactly the given ones that have an open cell, each as often as given, for every number of ranks and every assignment of boxes to ranks. -/
theorem eb_base_grids (ranks : ℕ) (al : Index n → K) (ba : List (BaseBox n)) (ho : ∀ b ∈ ba, b.owner < ranks) :
    (postProcessBaseGrids true ranks al ba).Perm (ba.filter fun b => decide (∃ i ∈ b.cells, al i ≠ 0)) := by
  have e : (fun b : BaseBox n => decide (∃ i ∈ b.cells, al i ≠ 0)) = fun b => !boxCovered al b := by
    funext b
    rw [boxCovered, ← decide_not]
    exact decide_eq_decide.2 (by push Not; rfl)
  rw [e]
  simp only [postProcessBaseGrids, if_true]
  exact flatMap_filter_perm (fun b => b.owner) _ ranks ba ho

/-- **C164.** No gas is lost: every open cell stays in as many boxes as before, and the amount of gas on the level is unchanged for all data. -/
theorem eb_base_grids_gas (remove : Bool) (ranks : ℕ) (al : Index n → K) (ba : List (BaseBox n)) (ho : ∀ b ∈ ba, b.owner < ranks) (u : Index n → K) :
    (∀ i, al i ≠ 0 → (postProcessBaseGrids remove ranks al ba).countP (fun b => decide (i ∈ b.cells)) = ba.countP (fun b => decide (i ∈ b.cells)))
    ∧ ((postProcessBaseGrids remove ranks al ba).map fun b => ∑ i ∈ b.cells, al i * u i).sum = (ba.map fun b => ∑ i ∈ b.cells, al i * u i).sum := by
  cases remove with
  | false => exact ⟨fun _ _ => rfl, rfl⟩
  | true =>
    have hp := eb_base_grids ranks al ba ho
    constructor
    · intro i hi
      rw [hp.countP_eq, List.countP_filter]
      congr 1
      funext b
      by_cases h : i ∈ b.cells
      · have : ∃ i ∈ b.cells, al i ≠ 0 := ⟨i, h, hi⟩
        simp only [h, this, decide_true, Bool.and_self]
      · simp only [h, decide_false, Bool.false_and]
    · rw [(hp.map _).sum_eq]
      clear hp ho
      induction ba with
      | nil => rfl
      | cons b bs ih =>
        by_cases h : ∃ i ∈ b.cells, al i ≠ 0
        · rw [List.filter_cons_of_pos (by simpa using h), List.map_cons, List.sum_cons, ih, List.map_cons, List.sum_cons]
        · rw [List.filter_cons_of_neg (by simpa using h), ih, List.map_cons, List.sum_cons]
          push Not at h
          rw [Finset.sum_eq_zero fun i hi => by rw [h i hi, zero_mul], zero_add]

end

/-- The hypotheses are met: a coarse level over a wall at three quarters of the first row, with a fine level over its first cell. -/
def exWallCoarse : GridLevel 2 ℚ := ⟨{![0, 0], ![1, 0]}, fun _ _ => 5⟩
def exWallFine : GridLevel 2 ℚ := ⟨{![0, 0], ![0, 1], ![1, 0], ![1, 1]}, fun i _ => if i 1 = 1 then 9 else 3⟩

theorem exWallNested : NestedIn (fun _ => 2) exWallCoarse exWallFine := by
  intro i hi
  simp only [exWallFine, Finset.mem_insert, Finset.mem_singleton] at hi
  rcases hi with rfl | rfl | rfl | rfl <;> exact ⟨by decide +kernel, by decide +kernel⟩

theorem exWallMean : HoldsGasMean (fun _ => 2) 0 (indexSpaces (fun _ => (3 / 4 : ℚ)) 1 1) exWallCoarse exWallFine := by
  intro i hi
  simp only [exWallCoarse, Finset.mem_insert, Finset.mem_singleton] at hi
  rcases hi with rfl | rfl
  · intro _; decide +kernel
  · intro h; exact absurd h (by decide +kernel)

example : gasTotal (fun _ => 2) 0 (indexSpaces (fun _ => (3 / 4 : ℚ)) 1) 0 1 (exWallCoarse :: ebRegrid 0 1 exWallCoarse
      [.remake {![2, 0], ![2, 1], ![3, 0], ![3, 1]}, .create {![4, 0], ![4, 1], ![5, 0], ![5, 1]} fun _ _ => 100] [exWallFine])
    = gasTotal (fun _ => 2) 0 (indexSpaces (fun _ => (3 / 4 : ℚ)) 1) 0 1 [exWallCoarse, exWallFine] := by
  refine eb_regrid_partial (first := 0) (size := 1) (c := 0) (by decide) _ (eb_flat_wall _ _ one_pos) 0 exWallCoarse
    [.remake {![2, 0], ![2, 1], ![3, 0], ![3, 1]}, .create {![4, 0], ![4, 1], ![5, 0], ![5, 1]} fun _ _ => 100] [exWallFine] ⟨rfl, trivial⟩ ⟨exWallNested, trivial⟩ ⟨exWallMean, trivial⟩ ⟨?_, ?_, trivial⟩ 1
  · intro i hi
    simp only [remakeLevel, Finset.mem_insert, Finset.mem_singleton] at hi
    rcases hi with rfl | rfl | rfl | rfl <;> exact ⟨by decide +kernel, by decide +kernel⟩
  · intro i hi
    simp only [newLevelFromCoarse, Finset.mem_insert, Finset.mem_singleton] at hi
    rcases hi with rfl | rfl | rfl | rfl <;> exact ⟨by decide +kernel, by decide +kernel⟩
example : gasTotal (fun _ => 2) 0 (indexSpaces (fun _ => (3 / 4 : ℚ)) 1) 0 1 [exWallCoarse, exWallFine] = 15 / 2 := by decide +kernel
example : wallFrac (fun x : ℚ => x / 2 + 1 / 4) 1 ![0, 0] = 1 / 2 := by decide +kernel
example : (ebAverageDown 0 1 true (indexSpaces (fun _ => (3 / 4 : ℚ)) 1 1) exWallFine exWallCoarse).val ![0, 0] 0 = 5 := by decide +kernel
example : (ebCoarsen 0 1 (indexSpaces (fun _ => (3 / 4 : ℚ)) 1 1) exWallFine exWallCoarse).val ![0, 0] 0 = 6 := by decide +kernel
/-- Two boxes on two ranks, the second one without gas. -/
example : (postProcessBaseGrids true 2 (fun i : Index 1 => if i 0 < 3 then (1 : ℚ) else 0) [⟨{fun _ => 2, fun _ => 3}, 1⟩, ⟨{fun _ => 4, fun _ => 5}, 0⟩]).length = 1 := by decide +kernel

end Fub
