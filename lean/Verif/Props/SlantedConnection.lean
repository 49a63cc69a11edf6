import Verif.Model.SlantedConnection
import Verif.Spec.SlantedConnection
import Verif.Props.MultiBlock
import Verif.Props.CutWall

/-!
C203: connections between a tube and a plenum through a slanted wall.
-/

namespace Fub
open Finset

section
variable {K : Type} [Field K] [LinearOrder K] [IsStrictOrderedRing K] {n : ℕ}

omit [IsStrictOrderedRing K] in
theorem slanted_neighbor_self (nrm : Index n → Fin n → K) (i : Index n) : slantedNeighbor nrm i = i := by
  unfold slantedNeighbor
  generalize List.finRange n = l
  induction l with
  | nil => rfl
  | cons a l ih => rw [List.foldl_cons]; exact ih

omit [IsStrictOrderedRing K] in
theorem wallMatches_iff (nrm : Index n → Fin n → K) (normal : Fin n → K) (tol : K) (i : Index n) : wallMatches nrm normal tol i = true ↔ OnConnection nrm normal tol i := by
  unfold wallMatches OnConnection
  simp only [decide_eq_true_eq]

omit [LinearOrder K] [IsStrictOrderedRing K] in
/-- Sums over distributed tiles of which those without a contribution are skipped. -/
theorem distributed_sum_skip (f : Index n → K) (single : IndexBox n → Bool) (box : IndexBox n) (ranks : List (List (IndexBox n))) (h : TilesDisjoint ranks.flatten) (hc : TilesCover box ranks.flatten)
    (hs : ∀ tile ∈ ranks.flatten, single tile = false → ∀ i ∈ box.toSet, i ∈ tile.toSet → f i = 0) :
    (ranks.map fun tiles => tiles.foldl (fun acc tile => if single tile then (forEachIndex (box.intersect tile)).foldl (fun acc i => acc + f i) acc else acc) 0).sum = ∑ i ∈ box.finset, f i := by
  rw [← distributed_sum f box ranks h hc]
  refine congrArg List.sum (List.map_congr_left fun tiles ht => ?_)
  refine List.foldl_ext _ _ _ fun acc tile htile => ?_
  by_cases hsing : single tile = true
  · rw [if_pos hsing]
  · rw [if_neg hsing]
    have hz : ∀ i ∈ forEachIndex (box.intersect tile), f i = 0 := by
      intro i hi
      have hmem := ((forEachIndex_spec _).1 i).1 hi
      have hm : ∀ d, max (box.lower d) (tile.lower d) ≤ i d ∧ i d < max (max (box.lower d) (tile.lower d)) (min (box.upper d) (tile.upper d)) := hmem
      exact hs tile (List.mem_flatten.2 ⟨tiles, ht, htile⟩) (by simpa using hsing) i
        (fun d => by have := hm d; constructor <;> omega)
        (fun d => by have := hm d; constructor <;> omega)
    rw [foldl_add_sum]
    have : ((forEachIndex (box.intersect tile)).map f).sum = 0 := by
      rw [List.map_congr_left hz]; simp
    rw [this, add_zero]

omit [IsStrictOrderedRing K] in
theorem slanted_volume (nrm : Index n → Fin n → K) (normal : Fin n → K) (tol vol : K) (single : IndexBox n → Bool) (box : IndexBox n) (ranks : List (List (IndexBox n)))
    (h : TilesDisjoint ranks.flatten) (hc : TilesCover box ranks.flatten)
    (hs : ∀ tile ∈ ranks.flatten, single tile = false → ∀ i ∈ box.toSet, i ∈ tile.toSet → ¬OnConnection nrm normal tol i) :
    slantedVolume nrm normal tol vol single box ranks = ((box.finset.filter (OnConnection nrm normal tol)).card : K) * vol := by
  have := distributed_sum_skip (fun i => if OnConnection nrm normal tol i then vol else 0) single box ranks h hc (fun t ht hf i hi hit => if_neg (hs t ht hf i hi hit))
  rw [← Finset.sum_filter, Finset.sum_const, nsmul_eq_mul] at this
  rw [← this]
  unfold slantedVolume slantedLocalVolume
  have e : (fun (acc : K) (i : Index n) => if wallMatches nrm normal tol i = true then acc + vol else acc) = fun acc i => acc + (if OnConnection nrm normal tol i then vol else 0) := by
    funext acc i
    simp only [wallMatches_iff]
    split <;> simp
  simp only [e]

/-- **C203 (partial: the state of the cell in front of the wall should contribute, see `slanted_front_ignored`).** However the cells are distributed over processes and tiles, the average that a slanted connection gives to the tube
is the mean of the data over the cut cells of the connection. The hypotheses on the types of tiles and patches and on the volume fractions hold for every geometry: cells with a wall are cut cells, which are open in part. -/
theorem slanted_average_partial (nrm : Index n → Fin n → K) (normal : Fin n → K) (tol vol : K) (hv : 0 < vol) (singleTile singlePatch : IndexBox n → Bool) (alpha data : Index n → K) (box : IndexBox n)
    (ranks : List (List (IndexBox n))) (h : TilesDisjoint ranks.flatten) (hc : TilesCover box ranks.flatten)
    (hs : ∀ tile ∈ ranks.flatten, singleTile tile = false ∨ singlePatch tile = false → ∀ i ∈ box.toSet, i ∈ tile.toSet → ¬OnConnection nrm normal tol i)
    (ha : ∀ i ∈ box.toSet, OnConnection nrm normal tol i → 0 < alpha i) :
    slantedAverage nrm normal tol vol singleTile singlePatch alpha data box ranks =
      (∑ i ∈ box.finset with OnConnection nrm normal tol i, data i) / ((box.finset.filter (OnConnection nrm normal tol)).card : K) := by
  set N : K := ((box.finset.filter (OnConnection nrm normal tol)).card : K) with hN
  have hvol : slantedVolume nrm normal tol vol singleTile box ranks = N * vol :=
    slanted_volume nrm normal tol vol singleTile box ranks h hc fun t ht hf => hs t ht (Or.inl hf)
  have := distributed_sum_skip (fun i => if 0 < alpha i ∧ OnConnection nrm normal tol i then vol / (N * vol) * data i else 0) singlePatch box ranks h hc
    (fun t ht hf i hi hit => if_neg fun hh => hs t ht (Or.inr hf) i hi hit hh.2)
  have e : (fun (acc : K) (i : Index n) => if 0 < alpha i ∧ wallMatches nrm normal tol i = true then
        acc + vol / (N * vol) * (alpha i * data i + (1 - alpha i) * data (slantedNeighbor nrm i)) else acc)
      = fun acc i => acc + (if 0 < alpha i ∧ OnConnection nrm normal tol i then vol / (N * vol) * data i else 0) := by
    funext acc i
    simp only [wallMatches_iff, slanted_neighbor_self]
    split
    · ring
    · simp
  unfold slantedAverage slantedLocal
  simp only [hvol, e]
  rw [this, Finset.sum_div, Finset.sum_filter]
  refine Finset.sum_congr rfl fun i hi => ?_
  by_cases hon : OnConnection nrm normal tol i
  · rw [if_pos ⟨ha i ((mem_finset _ _).1 hi) hon, hon⟩, if_pos hon, div_mul_eq_mul_div, mul_comm N vol, mul_div_mul_left _ _ hv.ne']
  · rw [if_neg fun hh => hon hh.2, if_neg hon]

/-- **C203.** The average lies between the bounds of the data in the cut cells of the connection; in particular a uniform gas keeps its state. -/
theorem slanted_average_range (nrm : Index n → Fin n → K) (normal : Fin n → K) (tol vol : K) (hv : 0 < vol) (singleTile singlePatch : IndexBox n → Bool) (alpha data : Index n → K) (box : IndexBox n)
    (ranks : List (List (IndexBox n))) (h : TilesDisjoint ranks.flatten) (hc : TilesCover box ranks.flatten)
    (hs : ∀ tile ∈ ranks.flatten, singleTile tile = false ∨ singlePatch tile = false → ∀ i ∈ box.toSet, i ∈ tile.toSet → ¬OnConnection nrm normal tol i)
    (ha : ∀ i ∈ box.toSet, OnConnection nrm normal tol i → 0 < alpha i) (hex : ∃ i ∈ box.toSet, OnConnection nrm normal tol i) {lo up : K}
    (hd : ∀ i ∈ box.toSet, OnConnection nrm normal tol i → lo ≤ data i ∧ data i ≤ up) :
    lo ≤ slantedAverage nrm normal tol vol singleTile singlePatch alpha data box ranks ∧ slantedAverage nrm normal tol vol singleTile singlePatch alpha data box ranks ≤ up := by
  obtain ⟨i0, hi0, hon⟩ := hex
  have hcard : 0 < (box.finset.filter (OnConnection nrm normal tol)).card := Finset.card_pos.2 ⟨i0, Finset.mem_filter.2 ⟨(mem_finset _ _).2 hi0, hon⟩⟩
  have hN : (0 : K) < ((box.finset.filter (OnConnection nrm normal tol)).card : K) := by exact_mod_cast hcard
  rw [slanted_average_partial nrm normal tol vol hv singleTile singlePatch alpha data box ranks h hc hs ha, le_div_iff₀ hN, div_le_iff₀ hN]
  have key : ∀ i ∈ box.finset.filter (OnConnection nrm normal tol), lo ≤ data i ∧ data i ≤ up := fun i hi =>
    hd i ((mem_finset _ _).1 (Finset.mem_filter.1 hi).1) (Finset.mem_filter.1 hi).2
  constructor
  · have := Finset.card_nsmul_le_sum _ _ lo fun i hi => (key i hi).1
    rw [nsmul_eq_mul] at this; linarith
  · have := Finset.sum_le_card_nsmul _ _ up fun i hi => (key i hi).2
    rw [nsmul_eq_mul] at this; linarith

/-- **C203 (partial: the hypothesis `hflat`).** The average is the mean of the states of the full cells at the wall, provided each cut cell of the connection is open or the cell in front of it has the same state. -/
theorem slanted_full_cells_partial (nrm : Index n → Fin n → K) (normal : Fin n → K) (tol vol : K) (hv : 0 < vol) (singleTile singlePatch : IndexBox n → Bool) (alpha data : Index n → K) (box : IndexBox n)
    (ranks : List (List (IndexBox n))) (h : TilesDisjoint ranks.flatten) (hc : TilesCover box ranks.flatten)
    (hs : ∀ tile ∈ ranks.flatten, singleTile tile = false ∨ singlePatch tile = false → ∀ i ∈ box.toSet, i ∈ tile.toSet → ¬OnConnection nrm normal tol i)
    (ha : ∀ i ∈ box.toSet, OnConnection nrm normal tol i → 0 < alpha i)
    (hflat : ∀ i ∈ box.toSet, OnConnection nrm normal tol i → alpha i = 1 ∨ data (inFront nrm i) = data i) :
    slantedAverage nrm normal tol vol singleTile singlePatch alpha data box ranks =
      (∑ i ∈ box.finset with OnConnection nrm normal tol i, fullCellState nrm alpha data i) / ((box.finset.filter (OnConnection nrm normal tol)).card : K) := by
  rw [slanted_average_partial nrm normal tol vol hv singleTile singlePatch alpha data box ranks h hc hs ha]
  refine congrArg (· / _) (Finset.sum_congr rfl fun i hi => ?_)
  obtain ⟨h1, h2⟩ := Finset.mem_filter.1 hi
  unfold fullCellState
  rcases hflat i ((mem_finset _ _).1 h1) h2 with e | e
  · rw [e]; ring
  · rw [e]; ring

omit [IsStrictOrderedRing K] in
/-- Disagreement (C203): the cells in front of the wall never contribute: two states of the gas that agree in the cut cells of the connection give the same average, whatever the volume fractions. The result of the shift is dropped in the
source. -/
theorem slanted_front_ignored (nrm : Index n → Fin n → K) (normal : Fin n → K) (tol vol : K) (singleTile singlePatch : IndexBox n → Bool) (alpha data data' : Index n → K) (box : IndexBox n)
    (ranks : List (List (IndexBox n))) (hd : ∀ i, OnConnection nrm normal tol i → data i = data' i) :
    slantedAverage nrm normal tol vol singleTile singlePatch alpha data box ranks = slantedAverage nrm normal tol vol singleTile singlePatch alpha data' box ranks := by
  unfold slantedAverage slantedLocal
  have e : ∀ (c : K), (fun (acc : K) (i : Index n) => if 0 < alpha i ∧ wallMatches nrm normal tol i = true then
        acc + c * (alpha i * data i + (1 - alpha i) * data (slantedNeighbor nrm i)) else acc)
      = fun acc i => if 0 < alpha i ∧ wallMatches nrm normal tol i = true then acc + c * (alpha i * data' i + (1 - alpha i) * data' (slantedNeighbor nrm i)) else acc := by
    intro c
    funext acc i
    by_cases hon : OnConnection nrm normal tol i
    · simp only [slanted_neighbor_self, hd i hon]
    · have : ¬(0 < alpha i ∧ wallMatches nrm normal tol i = true) := fun hh => hon ((wallMatches_iff nrm normal tol i).1 hh.2)
      simp only [this, if_false]
  simp only [e]

omit [IsStrictOrderedRing K] in
/-- **C203.** Without a cut cell of the connection the average is zero, so that the ghost cells keep their content (`slanted_ghosts`). -/
theorem slanted_no_wall (nrm : Index n → Fin n → K) (normal : Fin n → K) (tol vol : K) (singleTile singlePatch : IndexBox n → Bool) (alpha data : Index n → K) (box : IndexBox n)
    (ranks : List (List (IndexBox n))) (hno : ∀ i, ¬OnConnection nrm normal tol i) :
    slantedAverage nrm normal tol vol singleTile singlePatch alpha data box ranks = 0 := by
  unfold slantedAverage slantedLocal
  have e : ∀ (c : K), (fun (acc : K) (i : Index n) => if 0 < alpha i ∧ wallMatches nrm normal tol i = true then
        acc + c * (alpha i * data i + (1 - alpha i) * data (slantedNeighbor nrm i)) else acc) = fun acc _ => acc := by
    intro c
    funext acc i
    have : ¬(0 < alpha i ∧ wallMatches nrm normal tol i = true) := fun hh => hno i ((wallMatches_iff nrm normal tol i).1 hh.2)
    simp only [this, if_false]
  simp only [e]
  have f0 : ∀ (l : List (Index n)) (acc : K), l.foldl (fun acc _ => acc) acc = acc := by
    intro l; induction l with
    | nil => intro acc; rfl
    | cons a l ih => intro acc; rw [List.foldl_cons]; exact ih acc
  have f1 : ∀ (l : List (IndexBox n)), l.foldl (fun acc _ => acc) (0 : K) = 0 := by
    intro l; induction l with
    | nil => rfl
    | cons a l ih => rw [List.foldl_cons]; exact ih
  simp only [f0, ite_self, f1]
  rw [List.map_const', List.sum_replicate, smul_zero]

end

/-! ### A concrete wall -/

/-- The normals of a diagonal wall through the cells `(0, 1)` and `(1, 0)` of a box with two cells in each direction (with the rational unit vector `(3, 4) / 5`). -/
def slantedNormalsEx : Index 2 → Fin 2 → ℚ := fun i => if i = ![0, 1] ∨ i = ![1, 0] then ![3 / 5, 4 / 5] else ![0, 0]

/-- Half open cut cells. -/
def slantedAlphaEx : Index 2 → ℚ := fun i => if i = ![0, 1] ∨ i = ![1, 0] then 1 / 2 else if i = ![1, 1] then 0 else 1

/-- Data that grow with the first index. -/
def slantedDataEx : Index 2 → ℚ := fun i => 10 + 2 * i 0

/-- The wall meets the hypotheses: its cells belong to the connection and are open in part, and the cells are distributed over two processes. -/
example : (OnConnection slantedNormalsEx ![3 / 5, 4 / 5] (1 / 100) ![0, 1] ∧ ¬OnConnection slantedNormalsEx ![3 / 5, 4 / 5] (1 / 100) ![0, 0]) ∧ 0 < slantedAlphaEx ![0, 1] ∧
    slantedAverage slantedNormalsEx ![3 / 5, 4 / 5] (1 / 100) (1 / 4) (fun _ => true) (fun _ => true) slantedAlphaEx slantedDataEx ⟨![0, 0], ![2, 2]⟩ [[⟨![0, 0], ![2, 1]⟩], [⟨![0, 1], ![2, 2]⟩]] = 11 := by
  decide +kernel

/-- Disagreement (C203): the average is `11`, the mean of the full cells at the wall is `10`. -/
theorem slanted_front_wrong :
    slantedAverage slantedNormalsEx ![3 / 5, 4 / 5] (1 / 100) (1 / 4) (fun _ => true) (fun _ => true) slantedAlphaEx slantedDataEx ⟨![0, 0], ![2, 2]⟩ [[⟨![0, 0], ![2, 1]⟩], [⟨![0, 1], ![2, 2]⟩]] = 11 ∧
    (fullCellState slantedNormalsEx slantedAlphaEx slantedDataEx ![0, 1] + fullCellState slantedNormalsEx slantedAlphaEx slantedDataEx ![1, 0]) / 2 = 10 := by
  decide +kernel

/-! ### Ghost cells of the tube -/

/-- **C203.** Every ghost cell of the tube gets the same state, made of the average of the plenum: density, energy, species and passive scalars are those of the average, the momentum is its component along the normal of the wall, and the
pressure is too large by the kinetic energy of the motion along the wall, which has no place in the tube. -/
theorem slanted_ghosts {d s t : ℕ} (rot : (Fin (d + 1) → ℝ) → (Fin (d + 1) → ℝ) → Fin (d + 1) → Fin (d + 1) → ℝ) (hrot : IsRotationMaker rot) (eq : MixEq) (heq : eq.Valid) (normal : Fin (d + 1) → ℝ)
    (hn : IsUnit' normal) (avg : MixComplete d s t) (havg : IsMixState eq avg) (old : List (MixComplete 0 s t)) :
    ∃ q : MixComplete 0 s t, slantedGhosts rot eq normal avg.toMixCons old = some (List.replicate old.length q) ∧ IsMixState eq q ∧ q.density = avg.density ∧ q.energy = avg.energy ∧ q.species = avg.species ∧
      q.scalars = avg.scalars ∧ q.momentum 0 = ∑ i, normal i * avg.momentum i ∧
      q.pressure = avg.pressure + (eq.gamma - 1) * (eq.Msq * ((∑ i, avg.momentum i ^ 2 - (∑ i, normal i * avg.momentum i) ^ 2) / (2 * avg.density))) := by
  have hux : IsUnit' (unitX (d + 1)) := by
    unfold IsUnit' unitX
    rw [Fin.sum_univ_succ]
    simp [Fin.succ_ne_zero]
  obtain ⟨hR, hmap, -⟩ := hrot normal (unitX (d + 1)) hn hux
  set R := rot normal (unitX (d + 1)) with hRdef
  have hq : IsMixState eq (mixRotate R avg) := (mix_reflect_rotate eq avg normal hn R hR havg).2.1
  obtain ⟨q, e1, e2, e3, e4, e5, e6, e7, e8⟩ := reduce_pressure eq heq (mixRotate R avg) hq
  have hmap' : rotateVec R normal = unitX (d + 1) := funext fun i => hmap i
  have hx : rotateVec R avg.momentum 0 = ∑ i, normal i * avg.momentum i := by
    rw [← dot_rotate_both R hR normal avg.momentum, hmap', Fin.sum_univ_succ]
    simp [unitX, Fin.succ_ne_zero]
  have hsq : ∑ i : Fin d, rotateVec R avg.momentum i.succ ^ 2 = ∑ i, avg.momentum i ^ 2 - (∑ i, normal i * avg.momentum i) ^ 2 := by
    have h1 := dot_rotate_both R hR avg.momentum avg.momentum
    rw [Fin.sum_univ_succ] at h1
    have h2 : ∑ i, avg.momentum i * avg.momentum i = ∑ i, avg.momentum i ^ 2 := Finset.sum_congr rfl fun i _ => (sq _).symm
    have h3 : ∑ i : Fin d, rotateVec R avg.momentum i.succ * rotateVec R avg.momentum i.succ = ∑ i : Fin d, rotateVec R avg.momentum i.succ ^ 2 :=
      Finset.sum_congr rfl fun i _ => (sq _).symm
    rw [h2, h3, hx] at h1
    linear_combination h1
  refine ⟨q, ?_, e2, e3, e5, e6, e7, e4.trans hx, ?_⟩
  · have hf : ∀ o : MixComplete 0 s t, fillGhost (fun q => reduceState eq (mixRotateCons R q)) MixCons.density o avg.toMixCons = some q := by
      intro o
      unfold fillGhost
      rw [if_pos havg.density_pos]
      exact e1
    unfold slantedGhosts
    rw [← hRdef]
    induction old with
    | nil => rfl
    | cons o os ih =>
      rw [List.mapM_cons, hf o, ih]
      rfl
  · rw [e8]
    have e9 : (mixRotate R avg).momentum = rotateVec R avg.momentum := rfl
    rw [e9, hsq]
    rfl

/-- **C203.** If the average has no density (no cut cell of the connection was found), the ghost cells keep their content. -/
theorem slanted_ghosts_kept {d s t : ℕ} (rot : (Fin (d + 1) → ℝ) → (Fin (d + 1) → ℝ) → Fin (d + 1) → Fin (d + 1) → ℝ) (eq : MixEq) (normal : Fin (d + 1) → ℝ)
    (avg : MixCons d s t) (havg : avg.density ≤ 0) (old : List (MixComplete 0 s t)) : slantedGhosts rot eq normal avg old = some old := by
  have hf : ∀ o : MixComplete 0 s t, fillGhost (fun q => reduceState eq (mixRotateCons (rot normal (unitX (d + 1))) q)) MixCons.density o avg = some o := by
    intro o
    unfold fillGhost
    rw [if_neg (not_lt.2 havg)]
  unfold slantedGhosts
  induction old with
  | nil => rfl
  | cons o os ih =>
    rw [List.mapM_cons, hf o, ih]
    rfl

/-- Both rotations of the source meet the hypothesis of `slanted_ghosts`. -/
example : IsRotationMaker makeRotation2 ∧ IsRotationMaker makeRotation3 := ⟨make_rotation2, make_rotation3⟩

/-- A slanted unit normal. -/
example : IsUnit' (![3 / 5, 4 / 5] : Fin 2 → ℝ) := by
  unfold IsUnit'
  rw [Fin.sum_univ_two]
  norm_num

end Fub
