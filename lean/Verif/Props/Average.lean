import Verif.Model.Average
import Verif.Spec.PatchIntegrator
import Verif.Props.IndexBox
import Verif.Props.PatchIntegrator
import Mathlib.Algebra.Order.BigOperators.Group.Finset
import Mathlib.Algebra.Order.Field.Basic
import Mathlib.Algebra.BigOperators.Field
import Mathlib.Tactic.FieldSimp
import Mathlib.Tactic.Linarith

/-!
C93 (averages over a box).
-/

namespace Fub
open Finset
variable {K : Type} {n : Nat}

/-- The tiles of all processes do not overlap. -/
def TilesDisjoint (tiles : List (IndexBox n)) : Prop := tiles.Pairwise fun a b => Disjoint a.toSet b.toSet

/-- Every cell of the box belongs to some tile. -/
def TilesCover (box : IndexBox n) (tiles : List (IndexBox n)) : Prop := ∀ i ∈ box.toSet, ∃ t ∈ tiles, i ∈ t.toSet

/-- The cells in the order they are visited. -/
def visited (box : IndexBox n) (tiles : List (IndexBox n)) : List (Index n) := tiles.flatMap fun t => forEachIndex (box.intersect t)

theorem mem_visited (box : IndexBox n) (tiles : List (IndexBox n)) (i : Index n) : i ∈ visited box tiles ↔ i ∈ box.toSet ∧ ∃ t ∈ tiles, i ∈ t.toSet := by
  simp only [visited, List.mem_flatMap, (forEachIndex_spec _).1, (intersect_spec _ _).1, Set.mem_inter_iff]
  constructor
  · rintro ⟨t, h1, h2, h3⟩; exact ⟨h2, t, h1, h3⟩
  · rintro ⟨h2, t, h1, h3⟩; exact ⟨t, h1, h2, h3⟩

theorem nodup_visited (box : IndexBox n) {tiles : List (IndexBox n)} (h : TilesDisjoint tiles) : (visited box tiles).Nodup := by
  induction tiles with
  | nil => simp [visited]
  | cons t ts ih =>
    obtain ⟨h1, h2⟩ := List.pairwise_cons.1 h
    have e : visited box (t :: ts) = forEachIndex (box.intersect t) ++ visited box ts := by simp [visited]
    rw [e]
    refine List.nodup_append.2 ⟨(forEachIndex_spec _).2.2, ih h2, ?_⟩
    rintro a ha b hb rfl
    rw [(forEachIndex_spec _).1, (intersect_spec _ _).1] at ha
    obtain ⟨-, t', ht', hb'⟩ := (mem_visited _ _ _).1 hb
    exact Set.disjoint_left.1 (h1 t' ht') ha.2 hb'

theorem visited_perm {box : IndexBox n} {tiles : List (IndexBox n)} (h : TilesDisjoint tiles) (hc : TilesCover box tiles) : (visited box tiles).Perm (forEachIndex box) := by
  rw [List.perm_ext_iff_of_nodup (nodup_visited box h) (forEachIndex_spec box).2.2]
  intro i
  rw [mem_visited, (forEachIndex_spec box).1]
  exact ⟨fun h => h.1, fun h => ⟨h, hc i h⟩⟩

theorem foldl_add_sum [Field K] {X : Type} (f : X → K) (l : List X) (acc : K) : l.foldl (fun a i => a + f i) acc = acc + (l.map f).sum := by
  induction l generalizing acc with
  | nil => simp
  | cons x l ih => rw [List.foldl_cons, ih]; simp [add_assoc]

theorem local_average_eq [Field K] (data : Index n → K) (box : IndexBox n) (tiles : List (IndexBox n)) :
    localAverage data box tiles = ((visited box tiles).map fun i => data i / (boxNumPts box : K)).sum := by
  have : ∀ acc : K, tiles.foldl (fun acc tile => (forEachIndex (box.intersect tile)).foldl (fun acc i => acc + data i / (boxNumPts box : K)) acc) acc
      = acc + ((visited box tiles).map fun i => data i / (boxNumPts box : K)).sum := by
    induction tiles with
    | nil => intro acc; simp [visited]
    | cons t ts ih =>
      intro acc
      have e : visited box (t :: ts) = forEachIndex (box.intersect t) ++ visited box ts := by simp [visited]
      rw [List.foldl_cons, ih, foldl_add_sum, e, List.map_append, List.sum_append, add_assoc]
  rw [localAverage, this, zero_add]

theorem average_visited [Field K] (data : Index n → K) (box : IndexBox n) (ranks : List (List (IndexBox n))) :
    averageState data box ranks = ((visited box ranks.flatten).map fun i => data i / (boxNumPts box : K)).sum := by
  induction ranks with
  | nil => simp [averageState, visited]
  | cons r rs ih =>
    have e : visited box (r :: rs).flatten = visited box r ++ visited box rs.flatten := by simp [visited]
    rw [e, List.map_append, List.sum_append, ← ih, ← local_average_eq]
    simp [averageState]

theorem forEachIndex_finset (box : IndexBox n) : (forEachIndex box).toFinset = box.finset := by
  ext i; rw [List.mem_toFinset, (forEachIndex_spec box).1, mem_finset]

theorem boxNumPts_card (box : IndexBox n) : boxNumPts box = box.finset.card := by
  rw [← forEachIndex_finset, List.toFinset_card_of_nodup (forEachIndex_spec box).2.2, boxNumPts]

theorem sum_forEachIndex [AddCommMonoid K] (box : IndexBox n) (f : Index n → K) : ((forEachIndex box).map f).sum = ∑ i ∈ box.finset, f i := by
  rw [← forEachIndex_finset, List.sum_toFinset _ (forEachIndex_spec box).2.2]

/-- **C93.** If the tiles of all processes cover the box without overlaps, the average is the arithmetic mean over the cells of the box, however the tiles are cut and distributed. -/
theorem average_mean [Field K] (data : Index n → K) (box : IndexBox n) (ranks : List (List (IndexBox n))) (h : TilesDisjoint ranks.flatten) (hc : TilesCover box ranks.flatten) :
    averageState data box ranks = (∑ i ∈ box.finset, data i) / box.finset.card := by
  rw [average_visited, ((visited_perm h hc).map _).sum_eq, sum_forEachIndex, boxNumPts_card, sum_div]

/-- **C93.** The average lies between the smallest and the largest value in the box; a constant field has its constant as average. -/
theorem average_range [Field K] [LinearOrder K] [IsStrictOrderedRing K] (data : Index n → K) (box : IndexBox n) (ranks : List (List (IndexBox n))) (h : TilesDisjoint ranks.flatten)
    (hc : TilesCover box ranks.flatten) (hne : box.toSet.Nonempty) {m M : K} (hm : ∀ i ∈ box.toSet, m ≤ data i ∧ data i ≤ M) :
    m ≤ averageState data box ranks ∧ averageState data box ranks ≤ M := by
  obtain ⟨i0, hi0⟩ := hne
  have hcard : (0 : K) < box.finset.card := by
    exact_mod_cast Finset.card_pos.2 ⟨i0, (mem_finset _ _).2 hi0⟩
  rw [average_mean data box ranks h hc]
  constructor
  · rw [le_div_iff₀ hcard]
    have := Finset.card_nsmul_le_sum box.finset data m fun i hi => (hm i ((mem_finset _ _).1 hi)).1
    rw [nsmul_eq_mul] at this
    linarith
  · rw [div_le_iff₀ hcard]
    have := Finset.sum_le_card_nsmul box.finset data M fun i hi => (hm i ((mem_finset _ _).1 hi)).2
    rw [nsmul_eq_mul] at this
    linarith

/-- **C93, disagreement.** The divisor counts all cells of the box: if the tiles (of a refined level, or a box that reaches out of the domain) cover only a part of it, the average of a constant field is too small by the covered fraction. -/
theorem average_uncovered [Field K] (v : K) (box : IndexBox n) (ranks : List (List (IndexBox n))) (h : TilesDisjoint ranks.flatten) :
    averageState (fun _ => v) box ranks = v * ((visited box ranks.flatten).toFinset.card / box.finset.card) := by
  rw [average_visited, boxNumPts_card, List.toFinset_card_of_nodup (nodup_visited box h)]
  simp only [List.map_const', List.sum_replicate, nsmul_eq_mul]
  ring

/-- **C93.** `AccumulateState` applies the operation once to every cell of the box, in an order that only matters if the operation is sensitive to it. -/
theorem accumulate_cells {A X : Type} (op : A → X → A) (hop : ∀ a x y, op (op a x) y = op (op a y) x) (data : Index n → X) (box : IndexBox n) (tiles : List (IndexBox n)) (init : A)
    (h : TilesDisjoint tiles) (hc : TilesCover box tiles) :
    accumulateState op data box tiles init = (forEachIndex box).foldl (fun acc i => op acc (data i)) init := by
  have e : ∀ init, accumulateState op data box tiles init = (visited box tiles).foldl (fun acc i => op acc (data i)) init := by
    clear h hc
    induction tiles with
    | nil => intro init; rfl
    | cons t ts ih =>
      intro init
      have e : visited box (t :: ts) = forEachIndex (box.intersect t) ++ visited box ts := by simp [visited]
      rw [e, List.foldl_append, ← ih]; rfl
  rw [e]
  have : RightCommutative (fun (acc : A) (i : Index n) => op acc (data i)) := ⟨fun a x y => hop a _ _⟩
  exact (visited_perm h hc).foldl_eq _

/-- Two processes, three tiles: the premises are met and the mean of a linear field is its value in the middle. -/
example : let tiles : List (List (IndexBox 1)) := [[⟨![0], ![2]⟩], [⟨![2], ![3]⟩, ⟨![3], ![8]⟩]]
    averageState (fun i => (i 0 : ℚ)) (⟨![1], ![6]⟩ : IndexBox 1) tiles = 3 ∧ averageState (fun _ => (1 : ℚ)) (⟨![1], ![10]⟩ : IndexBox 1) tiles = 7 / 9 := by
  decide +kernel

end Fub
