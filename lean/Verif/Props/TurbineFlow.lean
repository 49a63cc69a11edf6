import Verif.Spec.TurbineFlow
import Verif.Props.Average
import Verif.Props.CutBoundary
import Verif.Props.MassflowJirasek
import Verif.Props.MassflowExact
import Mathlib.Algebra.Order.BigOperators.Group.Finset
import Mathlib.Tactic.Linarith
import Mathlib.Tactic.FieldSimp

/-!
C188 (mass flow boundaries with an embedded boundary).
-/

namespace Fub
open Finset
variable {n : Nat} {K Q κ : Type}

/-! ### Sums over the tiles of all processes -/

theorem accumulate_visited {A X : Type} (op : A → X → A) (data : Index n → X) (box : IndexBox n) (tiles : List (IndexBox n)) (init : A) :
    accumulateState op data box tiles init = (visited box tiles).foldl (fun acc i => op acc (data i)) init := by
  induction tiles generalizing init with
  | nil => rfl
  | cons t ts ih =>
    have e : visited box (t :: ts) = forEachIndex (box.intersect t) ++ visited box ts := by simp [visited]
    rw [e, List.foldl_append, ← ih]; rfl

theorem ranks_sum [Field K] {X : Type} (f : X → K) (data : Index n → X) (box : IndexBox n) (ranks : List (List (IndexBox n)))
    (h : TilesDisjoint ranks.flatten) (hc : TilesCover box ranks.flatten) :
    (ranks.map fun tiles => accumulateState (fun acc x => acc + f x) data box tiles 0).sum = ∑ i ∈ box.finset, f (data i) := by
  rw [← sum_forEachIndex, ← ((visited_perm h hc).map _).sum_eq]
  clear h hc
  induction ranks with
  | nil => simp [visited]
  | cons r rs ih =>
    have e : visited box (r :: rs).flatten = visited box r ++ visited box rs.flatten := by simp [visited]
    rw [e, List.map_append, List.sum_append, List.map_cons, List.sum_cons, ih, accumulate_visited, foldl_add_sum, zero_add]

theorem averageRequired_eq [Field K] (ops : FlowOps K Q κ) (level : Index n → Q) (mirror : IndexBox n) (ranks : List (List (IndexBox n))) :
    averageRequired ops level mirror ranks = averageState (fun i => ops.required (level i)) mirror ranks := rfl

section
variable [Field K] (ops : FlowOps K Q κ) (level : Index n → Q) (mirror : IndexBox n)

/-- The ghost state of one cell in the mode with averaged outer states. -/
def outerCell (i : Index n) : Option Q := ops.transformState (ops.complete (ops.cons (level i)))

theorem outer_fold (N : K) (l : List (Index n)) (gh : Index n → Q) (hg : ∀ i ∈ l, outerCell ops level i = some (gh i)) (a0 : κ → K) :
    l.foldl (fun (average : Option (κ → K)) i => average.bind fun a => (outerCell ops level i).map fun e k => a k + ops.cons e k / N) (some a0) =
      some fun k => a0 k + (l.map fun i => ops.cons (gh i) k / N).sum := by
  induction l generalizing a0 with
  | nil => simp
  | cons i l ih =>
    rw [List.foldl_cons, Option.bind_some, hg i (by simp), Option.map_some, ih fun j hj => hg j (by simp [hj])]
    simp [add_assoc]

theorem outer_fold_none (N : K) (l : List (Index n)) :
    l.foldl (fun (average : Option (κ → K)) i => average.bind fun a => (outerCell ops level i).map fun e k => a k + ops.cons e k / N) none = none := by
  induction l with
  | nil => rfl
  | cons i l ih => rw [List.foldl_cons, Option.bind_none, ih]

theorem outer_fold_some (N : K) (l : List (Index n)) (a0 : Option (κ → K)) (r : κ → K)
    (h : l.foldl (fun (average : Option (κ → K)) i => average.bind fun a => (outerCell ops level i).map fun e k => a k + ops.cons e k / N) a0 = some r) :
    ∀ i ∈ l, (outerCell ops level i).isSome := by
  induction l generalizing a0 with
  | nil => simp
  | cons j l ih =>
    rw [List.foldl_cons] at h
    intro i hi
    rcases List.mem_cons.1 hi with rfl | hi
    · cases hc : outerCell ops level i with
      | some _ => rfl
      | none =>
        have : (a0.bind fun a => (none : Option Q).map fun e k => a k + ops.cons e k / N) = none := by cases a0 <;> rfl
        rw [hc, this, outer_fold_none] at h
        cases h
    · exact ih _ h i hi

/-- The averaged outer state is defined exactly when every cell of the box can be transformed, and then it is the state of the mean of the conserved
components. -/
theorem outerGhost_spec (ranks : List (List (IndexBox n))) (gh : Index n → Q) (hg : ∀ i ∈ visited mirror ranks.flatten, outerCell ops level i = some (gh i)) :
    outerGhost ops level mirror ranks = some (ops.complete fun k => averageState (fun i => ops.cons (gh i) k) mirror ranks) := by
  have key : ∀ rs : List (List (IndexBox n)), (∀ i ∈ visited mirror rs.flatten, outerCell ops level i = some (gh i)) →
      (rs.mapM fun tiles => accumulateState (fun (average : Option (κ → K)) (q : Q) =>
        average.bind fun a => (ops.transformState (ops.complete (ops.cons q))).map fun e k => a k + ops.cons e k / (boxNumPts mirror : K)) level mirror tiles (some fun _ => 0)) =
      some (rs.map fun tiles k => localAverage (fun i => ops.cons (gh i) k) mirror tiles) := by
    intro rs
    induction rs with
    | nil => intro _; rfl
    | cons r rs ih =>
      intro h
      have e : visited mirror (r :: rs).flatten = visited mirror r ++ visited mirror rs.flatten := by simp [visited]
      rw [List.mapM_cons, ih fun i hi => h i (by rw [e]; exact List.mem_append_right _ hi), accumulate_visited]
      have := outer_fold ops level (boxNumPts mirror : K) (visited mirror r) gh (fun i hi => h i (by rw [e]; exact List.mem_append_left _ hi)) fun _ => 0
      simp only [outerCell] at this
      rw [this]
      simp [local_average_eq]
  rw [outerGhost]
  rw [key ranks hg, Option.map_some]
  simp [averageState, Function.comp_def]

theorem outerGhost_some (ranks : List (List (IndexBox n))) (s : Q) (h : outerGhost ops level mirror ranks = some s) :
    ∀ i ∈ visited mirror ranks.flatten, (outerCell ops level i).isSome := by
  have key : ∀ (rs : List (List (IndexBox n))) (r : List (κ → K)),
      (rs.mapM fun tiles => accumulateState (fun (average : Option (κ → K)) (q : Q) =>
        average.bind fun a => (ops.transformState (ops.complete (ops.cons q))).map fun e k => a k + ops.cons e k / (boxNumPts mirror : K)) level mirror tiles (some fun _ => 0)) = some r →
      ∀ i ∈ visited mirror rs.flatten, (outerCell ops level i).isSome := by
    intro rs
    induction rs with
    | nil => intro r _ i hi; simp [visited] at hi
    | cons t rs ih =>
      intro r h i hi
      have e : visited mirror (t :: rs).flatten = visited mirror t ++ visited mirror rs.flatten := by simp [visited]
      rw [List.mapM_cons, accumulate_visited] at h
      obtain ⟨a, ha, h⟩ := Option.bind_eq_some_iff.1 h
      obtain ⟨b, hb, h⟩ := Option.bind_eq_some_iff.1 h
      rw [e] at hi
      rcases List.mem_append.1 hi with hi | hi
      · exact outer_fold_some ops level (boxNumPts mirror : K) (visited mirror t) _ _ ha i hi
      · exact ih b hb i hi
  rw [outerGhost] at h
  obtain ⟨r, hr, -⟩ := Option.map_eq_some_iff.1 h
  exact key ranks r hr

end

/-! ### The flow through the ghost cells -/

section
variable [Field K] [LinearOrder K] [IsStrictOrderedRing K] (ops : FlowOps K Q κ)
variable (mirror section_ : IndexBox n) (ranks : List (List (IndexBox n))) (level : Index n → Q)
variable (g : Geom n) (ngrow : Int) (valid : IndexBox n) (p : PatchTiles n) (dir : Fin n) (side : Int)
variable (isOpen : Index n → Bool) (zeros : Q) (data : Index n → Q) (m : κ) (A ε : K) (P : K → Q → Prop)

/-- **C188 (cellwise).** Every open cell of the section with an open image carries the flow that its image demands, up to the accuracy of the transformation; no other cell changes. -/
theorem turbine_cellwise (hp : IsPatch g ngrow valid p) (hside : side = 0 ∨ side = 1) (hsec : ∀ x ∈ section_.toSet, Beyond g.domain dir side x)
    (hR : ops.Reaches m A ε P)
    (hf : ∀ x, SectionCell section_ p x → isOpen x = true → isOpen (edgeCell g.domain dir side x) = true →
      P (ops.required (data (edgeCell g.domain dir side x))) (data (edgeCell g.domain dir side x)) ∧ (ops.transform (ops.required (data (edgeCell g.domain dir side x))) (data (edgeCell g.domain dir side x))).isSome) :
    ∃ data', turbineFill ops .cellwise mirror section_ ranks level g ngrow dir side isOpen zeros p data = some data' ∧
      (∀ x, SectionCell section_ p x → isOpen x = true → isOpen (edgeCell g.domain dir side x) = true →
        |ops.flow m A (data' x) - ops.required (data (edgeCell g.domain dir side x))| ≤ ε) ∧
      (∀ x, ¬(SectionCell section_ p x ∧ isOpen x = true ∧ isOpen (edgeCell g.domain dir side x) = true) → data' x = data x) := by
  obtain ⟨data', hr, h1, h2, h3⟩ := section_edge_fill_partial g ngrow valid p hp dir side hside section_ hsec isOpen ops.transformState data fun x a b c => (hf x a b c).2
  refine ⟨data', hr, fun x a b c => hR _ _ _ (hf x a b c).1 (h1 x a b c), fun x hx => ?_⟩
  by_cases hc : SectionCell section_ p x
  · exact h2 x hc fun hh => hx ⟨hc, hh⟩
  · exact h3 x hc

/-- **C188 (averaged mass flow).** If the patches of the level cover the box of the average, every such cell carries the mean of the demands of the box. -/
theorem turbine_average_massflow (hp : IsPatch g ngrow valid p) (hside : side = 0 ∨ side = 1) (hsec : ∀ x ∈ section_.toSet, Beyond g.domain dir side x)
    (hd : TilesDisjoint ranks.flatten) (hc : TilesCover mirror ranks.flatten) (hR : ops.Reaches m A ε P)
    (hf : ∀ x, SectionCell section_ p x → isOpen x = true → isOpen (edgeCell g.domain dir side x) = true →
      P (meanDemand ops level mirror) (data (edgeCell g.domain dir side x)) ∧ (ops.transform (meanDemand ops level mirror) (data (edgeCell g.domain dir side x))).isSome) :
    ∃ data', turbineFill ops .averageMassflow mirror section_ ranks level g ngrow dir side isOpen zeros p data = some data' ∧
      (∀ x, SectionCell section_ p x → isOpen x = true → isOpen (edgeCell g.domain dir side x) = true → |ops.flow m A (data' x) - meanDemand ops level mirror| ≤ ε) ∧
      (∀ x, ¬(SectionCell section_ p x ∧ isOpen x = true ∧ isOpen (edgeCell g.domain dir side x) = true) → data' x = data x) := by
  have e : averageRequired ops level mirror ranks = meanDemand ops level mirror := by rw [averageRequired_eq, average_mean _ _ _ hd hc]; rfl
  obtain ⟨data', hr, h1, h2, h3⟩ := section_edge_fill_partial g ngrow valid p hp dir side hside section_ hsec isOpen (ops.transform (meanDemand ops level mirror)) data
    fun x a b c => (hf x a b c).2
  refine ⟨data', by simp only [turbineFill, e]; exact hr, fun x a b c => hR _ _ _ (hf x a b c).1 (h1 x a b c), fun x hx => ?_⟩
  by_cases hc : SectionCell section_ p x
  · exact h2 x hc fun hh => hx ⟨hc, hh⟩
  · exact h3 x hc

/-- **C188 (averaged outer state).** If the patches of the level cover the box, the states in the box are complete and `complete` keeps the momentum, then all open ghost cells of the
whole side get one state, and it carries the mean of the demands of the box. -/
theorem turbine_outer_state (hp : IsPatch g ngrow valid p) (hside : side = 0 ∨ side = 1) (hd : TilesDisjoint ranks.flatten) (hc : TilesCover mirror ranks.flatten)
    (hne : mirror.toSet.Nonempty) (hR : ops.Reaches m A ε P) (hm : ∀ u, ops.cons (ops.complete u) m = u m)
    (hl : ∀ i ∈ mirror.toSet, ops.complete (ops.cons (level i)) = level i)
    (hf : ∀ i ∈ mirror.toSet, P (ops.required (level i)) (level i) ∧ (ops.transform (ops.required (level i)) (level i)).isSome) :
    ∃ data' s, turbineFill ops .averageOuterState mirror section_ ranks level g ngrow dir side isOpen zeros p data = some data' ∧
      |ops.flow m A s - meanDemand ops level mirror| ≤ ε ∧
      (∀ x, SlabCell g p dir side x → data' x = if isOpen x then s else zeros) ∧ (∀ x, ¬SlabCell g p dir side x → data' x = data x) := by
  classical
  obtain ⟨gh, hgh⟩ : ∃ gh : Index n → Q, ∀ i ∈ mirror.toSet, ops.transform (ops.required (level i)) (level i) = some (gh i) :=
    ⟨fun i => (ops.transform (ops.required (level i)) (level i)).getD (level i), fun i hi => by
      obtain ⟨v, hv⟩ := Option.isSome_iff_exists.1 (hf i hi).2
      simp [hv]⟩
  have hs := outerGhost_spec ops level mirror ranks gh fun i hi => by
    have := ((mem_visited _ _ _).1 hi).1
    rw [outerCell, hl i this]; exact hgh i this
  obtain ⟨i0, hi0⟩ := hne
  have hcard : (0 : K) < mirror.finset.card := by exact_mod_cast Finset.card_pos.2 ⟨i0, (mem_finset _ _).2 hi0⟩
  obtain ⟨data', h1, h2, h3⟩ := cut_constant_fill g ngrow valid p hp dir side hside isOpen
    (ops.complete fun k => averageState (fun i => ops.cons (gh i) k) mirror ranks) zeros data
  refine ⟨data', _, by simp only [turbineFill, hs, Option.bind_some]; exact h1, ?_, h2, h3⟩
  have e : ops.flow m A (ops.complete fun k => averageState (fun i => ops.cons (gh i) k) mirror ranks) - meanDemand ops level mirror =
      (∑ i ∈ mirror.finset, (ops.flow m A (gh i) - ops.required (level i))) / mirror.finset.card := by
    rw [FlowOps.flow, hm, average_mean _ _ _ hd hc, meanDemand, sum_sub_distrib, sub_div]
    simp only [FlowOps.flow, ← mul_sum, mul_div_assoc]
  rw [e, abs_div, abs_of_pos hcard, div_le_iff₀ hcard]
  refine (abs_sum_le_sum_abs _ _).trans ?_
  have := Finset.sum_le_card_nsmul mirror.finset (fun i => |ops.flow m A (gh i) - ops.required (level i)|) ε fun i hi => by
    have hi' := (mem_finset _ _).1 hi
    exact hR _ _ _ (hf i hi').1 (hgh i hi')
  rw [nsmul_eq_mul] at this
  linarith

/-- **C188 (averaged outer state, failure).** If one cell of the box cannot be transformed the fill stops, however the cells are distributed. -/
theorem turbine_outer_stops (hc : TilesCover mirror ranks.flatten) (i : Index n) (hi : i ∈ mirror.toSet)
    (hf : ops.transform (ops.required (ops.complete (ops.cons (level i)))) (ops.complete (ops.cons (level i))) = none) :
    turbineFill ops .averageOuterState mirror section_ ranks level g ngrow dir side isOpen zeros p data = none := by
  cases hs : outerGhost ops level mirror ranks with
  | none => simp [turbineFill, hs]
  | some s =>
    have := outerGhost_some ops level mirror ranks s hs i ((mem_visited _ _ _).2 ⟨hi, hc i hi⟩)
    rw [outerCell, FlowOps.transformState, hf] at this
    cases this

/-- **C188 (averaged inner state), what holds.** All open ghost cells of the whole side get one state; it carries what the averaged state demands. -/
theorem turbine_inner_partial (hp : IsPatch g ngrow valid p) (hside : side = 0 ∨ side = 1) (hd : TilesDisjoint ranks.flatten) (hc : TilesCover mirror ranks.flatten)
    (hR : ops.Reaches m A ε P) :
    let mean := ops.complete fun k => (∑ i ∈ mirror.finset, ops.cons (level i) k) / mirror.finset.card
    P (ops.required mean) mean → (ops.transform (ops.required mean) mean).isSome →
    ∃ data' s, turbineFill ops .averageInnerState mirror section_ ranks level g ngrow dir side isOpen zeros p data = some data' ∧
      |ops.flow m A s - ops.required mean| ≤ ε ∧
      (∀ x, SlabCell g p dir side x → data' x = if isOpen x then s else zeros) ∧ (∀ x, ¬SlabCell g p dir side x → data' x = data x) := by
  intro mean hP hs
  obtain ⟨s, hs⟩ := Option.isSome_iff_exists.1 hs
  have e : innerGhost ops level mirror ranks = some s := by
    rw [innerGhost]
    simp only [average_mean _ _ _ hd hc]
    exact hs
  obtain ⟨data', h1, h2, h3⟩ := cut_constant_fill g ngrow valid p hp dir side hside isOpen s zeros data
  exact ⟨data', s, by simp only [turbineFill, e, Option.bind_some]; exact h1, hR _ _ _ hP hs, h2, h3⟩

/-- **C188 (the same total).** Three of the four modes: over a layer `S` of open ghost cells whose images are exactly the cells of the box of the average, the total flow is the total demand of the
box, up to the number of cells times the accuracy. -/
theorem turbine_same_total (mode : TurbineMode) (hmode : mode ≠ .averageInnerState) (hp : IsPatch g ngrow valid p) (hside : side = 0 ∨ side = 1)
    (hsec : ∀ x ∈ section_.toSet, Beyond g.domain dir side x) (hd : TilesDisjoint ranks.flatten) (hc : TilesCover mirror ranks.flatten)
    (hR : ops.Reaches m A ε P) (hm : ∀ u, ops.cons (ops.complete u) m = u m) (hl : ∀ i ∈ mirror.toSet, ops.complete (ops.cons (level i)) = level i)
    (himg : ∀ x, SectionCell section_ p x → isOpen x = true → isOpen (edgeCell g.domain dir side x) = true → edgeCell g.domain dir side x ∈ mirror.toSet)
    (hdata : ∀ i ∈ mirror.toSet, data i = level i)
    (hf : ∀ i ∈ mirror.toSet, ∀ r, r = ops.required (level i) ∨ r = meanDemand ops level mirror → P r (level i) ∧ (ops.transform r (level i)).isSome)
    (S : Finset (Index n)) (hS : ∀ x ∈ S, SectionCell section_ p x ∧ SlabCell g p dir side x ∧ isOpen x = true ∧ isOpen (edgeCell g.domain dir side x) = true)
    (hbij : Set.BijOn (edgeCell g.domain dir side) S mirror.toSet) (hne : mirror.toSet.Nonempty) :
    ∃ data', turbineFill ops mode mirror section_ ranks level g ngrow dir side isOpen zeros p data = some data' ∧
      |(∑ x ∈ S, ops.flow m A (data' x)) - ∑ i ∈ mirror.finset, ops.required (level i)| ≤ mirror.finset.card * ε := by
  classical
  have himage : S.image (edgeCell g.domain dir side) = mirror.finset := by
    ext i
    rw [mem_finset, ← hbij.image_eq]
    simp
  have hinj : Set.InjOn (edgeCell g.domain dir side) S := hbij.injOn
  have hcard : S.card = mirror.finset.card := by rw [← himage, Finset.card_image_of_injOn hinj]
  have hsum : ∑ x ∈ S, ops.required (level (edgeCell g.domain dir side x)) = ∑ i ∈ mirror.finset, ops.required (level i) := by
    rw [← himage, Finset.sum_image hinj]
  have hpos : (0 : K) < mirror.finset.card := by
    obtain ⟨i0, hi0⟩ := hne
    exact_mod_cast Finset.card_pos.2 ⟨i0, (mem_finset _ _).2 hi0⟩
  have hmean : ∑ _x ∈ S, meanDemand ops level mirror = ∑ i ∈ mirror.finset, ops.required (level i) := by
    rw [sum_const, nsmul_eq_mul, hcard, meanDemand]; field_simp
  have fin : ∀ (f : Index n → K) (data' : Index n → Q), (∑ x ∈ S, f x = ∑ i ∈ mirror.finset, ops.required (level i)) →
      (∀ x ∈ S, |ops.flow m A (data' x) - f x| ≤ ε) →
      |(∑ x ∈ S, ops.flow m A (data' x)) - ∑ i ∈ mirror.finset, ops.required (level i)| ≤ mirror.finset.card * ε := by
    intro f data' hf' hb
    rw [← hf', ← sum_sub_distrib, ← hcard]
    refine (abs_sum_le_sum_abs _ _).trans ?_
    have := Finset.sum_le_card_nsmul S _ ε hb
    rwa [nsmul_eq_mul] at this
  cases mode with
  | averageInnerState => exact absurd rfl hmode
  | cellwise =>
    obtain ⟨data', h1, h2, -⟩ := turbine_cellwise ops mirror section_ ranks level g ngrow valid p dir side isOpen zeros data m A ε P hp hside hsec hR fun x a b c => by
      have := himg x a b c
      rw [hdata _ this]; exact hf _ this _ (Or.inl rfl)
    refine ⟨data', h1, fin _ data' hsum fun x hx => ?_⟩
    obtain ⟨a, -, b, c⟩ := hS x hx
    have := h2 x a b c
    rwa [hdata _ (himg x a b c)] at this
  | averageMassflow =>
    obtain ⟨data', h1, h2, -⟩ := turbine_average_massflow ops mirror section_ ranks level g ngrow valid p dir side isOpen zeros data m A ε P hp hside hsec hd hc hR fun x a b c => by
      have := himg x a b c
      rw [hdata _ this]; exact hf _ this _ (Or.inr rfl)
    refine ⟨data', h1, fin _ data' hmean fun x hx => ?_⟩
    obtain ⟨a, -, b, c⟩ := hS x hx
    exact h2 x a b c
  | averageOuterState =>
    obtain ⟨data', s, h1, hs, h2, -⟩ := turbine_outer_state ops mirror section_ ranks level g ngrow valid p dir side isOpen zeros data m A ε P hp hside hd hc hne hR hm hl
      fun i hi => hf i hi _ (Or.inl rfl)
    refine ⟨data', h1, fin _ data' hmean fun x hx => ?_⟩
    obtain ⟨-, a, b, -⟩ := hS x hx
    rw [h2 x a, b, if_pos rfl]
    exact hs

/-- **C188 is false on levels which do not cover the box.** The box is given in cells of the coarsest level and used with the same indices on every level, and the divisor counts all its cells.
Where all cells demand the flow `r`, the ghost cells carry `r` times the fraction of the box that the level covers; they carry nothing if the level does not meet the box. -/
theorem turbine_level_wrong (hp : IsPatch g ngrow valid p) (hside : side = 0 ∨ side = 1) (hsec : ∀ x ∈ section_.toSet, Beyond g.domain dir side x)
    (hd : TilesDisjoint ranks.flatten) (hR : ops.Reaches m A ε P) (r : K) (hr : ∀ i, ops.required (level i) = r)
    (hf : ∀ x, SectionCell section_ p x → isOpen x = true → isOpen (edgeCell g.domain dir side x) = true →
      ∀ r', P r' (data (edgeCell g.domain dir side x)) ∧ (ops.transform r' (data (edgeCell g.domain dir side x))).isSome) :
    ∃ data', turbineFill ops .averageMassflow mirror section_ ranks level g ngrow dir side isOpen zeros p data = some data' ∧
      (∀ x, SectionCell section_ p x → isOpen x = true → isOpen (edgeCell g.domain dir side x) = true →
        |ops.flow m A (data' x) - r * ((visited mirror ranks.flatten).toFinset.card / mirror.finset.card)| ≤ ε ∧
        ((∀ i ∈ mirror.toSet, ∀ t ∈ ranks.flatten, i ∉ t.toSet) → |ops.flow m A (data' x)| ≤ ε)) := by
  have e : averageRequired ops level mirror ranks = r * ((visited mirror ranks.flatten).toFinset.card / mirror.finset.card) := by
    rw [averageRequired_eq]; simp only [hr]; exact average_uncovered r mirror ranks hd
  obtain ⟨data', hr', h1, -⟩ := section_edge_fill_partial g ngrow valid p hp dir side hside section_ hsec isOpen (ops.transform (averageRequired ops level mirror ranks)) data
    fun x a b c => (hf x a b c _).2
  refine ⟨data', hr', fun x a b c => ?_⟩
  have := hR _ _ _ (hf x a b c _).1 (h1 x a b c)
  rw [e] at this
  refine ⟨this, fun hno => ?_⟩
  have hv : visited mirror ranks.flatten = [] := by
    refine List.eq_nil_iff_forall_not_mem.2 fun i hi => ?_
    obtain ⟨h1, t, ht, hit⟩ := (mem_visited _ _ _).1 hi
    exact hno i h1 t ht hit
  rw [hv] at this
  simpa using this

/-- **C188 (section).** The modes with an averaged state do not look at the section of the boundary. -/
theorem turbine_section_ignored (section2 : IndexBox n) (mode : TurbineMode) (h : mode = .averageInnerState ∨ mode = .averageOuterState) :
    turbineFill ops mode mirror section_ ranks level g ngrow dir side isOpen zeros p data =
      turbineFill ops mode mirror section2 ranks level g ngrow dir side isOpen zeros p data := by
  rcases h with rfl | rfl <;> rfl

end

/-- **C188 (the exact transformation).** For finitely many demands and states of a perfect gas the transformation with the exact Riemann problem has every accuracy if the number of
iterations is large and the last interval small. -/
theorem exact_reaches {d : ℕ} (eq : GasEq) (hv : eq.Valid) (area : ℝ) (ha : 0 < area) (dir : Fin d) (pairs : List (ℝ × GasComplete d)) (hs : ∀ c ∈ pairs, IsGasState eq c.2)
    (ε : ℝ) (hε : 0 < ε) :
    ∃ N : ℕ, ∃ δ > 0, ∀ (tol : ℝ → ℝ → Bool) (k : ℕ), N ≤ k → (∀ a b, tol a b = true → |b - a| ≤ δ) →
      ∀ ops : FlowOps ℝ (GasComplete d) (Option (Option (Fin d))),
        (∀ q i, ops.cons q (some (some i)) = q.momentum i) → (∀ r q, ops.transform r q = requireMassflow eq tol k r area dir q) →
        ops.Reaches (some (some dir)) area ε fun r q => (r, q) ∈ pairs := by
  induction pairs with
  | nil => exact ⟨0, 1, one_pos, fun _ _ _ _ _ _ _ r q q' h _ => absurd h (by simp)⟩
  | cons c cs ih =>
    obtain ⟨N1, δ1, h1, k1⟩ := ih fun c hc => hs c (by simp [hc])
    obtain ⟨N2, δ2, h2, k2⟩ := require_massflow_accuracy eq hv c.1 area ha dir c.2 (hs c (by simp)) ε hε
    refine ⟨max N1 N2, min δ1 δ2, lt_min h1 h2, fun tol k hk ht ops hcons htr r q q' hmem he => ?_⟩
    rcases List.mem_cons.1 hmem with hc | hc
    · have e1 : c.1 = r := by rw [← hc]
      have e2 : c.2 = q := by rw [← hc]
      rw [e1, e2] at k2
      rw [FlowOps.flow, hcons]
      rw [htr] at he
      exact (k2 tol k q' ((le_max_right _ _).trans hk) (fun a b h => (ht a b h).trans (min_le_right _ _)) he).le
    · exact k1 tol k ((le_max_left _ _).trans hk) (fun a b h => (ht a b h).trans (min_le_left _ _)) ops hcons htr r q q' hc he

/-! ### The averaged inner state demands another flow -/

/-- At rest the demand is the correlation times the root of pressure times density. -/
theorem required_at_rest {d s t : ℕ} (eq : MixEq) (corr : ℝ) (dir : Fin (d + 1)) (q : MixComplete d s t) (hq : IsMixState eq q) (hu : q.momentum dir = 0) :
    requiredMassflow eq corr dir q = corr * Real.sqrt (q.pressure * q.density) := by
  have h1 := hq.density_pos
  have h2 := hq.pressure_pos
  simp only [requiredMassflow, mixVelocity, mixTemperature, hu, zero_div, mul_zero, zero_mul, add_zero, Real.one_rpow, mul_one]
  have e : q.pressure = Real.sqrt (q.pressure * q.density) * Real.sqrt (q.pressure / q.density) := by
    rw [← Real.sqrt_mul (by positivity)]
    rw [show q.pressure * q.density * (q.pressure / q.density) = q.pressure * q.pressure by field_simp, Real.sqrt_mul_self h2.le]
  have hs : Real.sqrt (q.pressure / q.density) ≠ 0 := (Real.sqrt_pos.2 (by positivity)).ne'
  rw [div_eq_iff hs, mul_assoc, ← e]

/-- **C188 is false for the averaged inner state.** For every gas and every two states at rest with equal density and different pressures: the state with the mean of their conserved components
demands more than the mean of their demands. -/
theorem inner_demand_differs {d s t : ℕ} (eq : MixEq) (hv : eq.Valid) (corr : ℝ) (hcorr : 0 < corr) (dir : Fin (d + 1)) (q1 q2 q : MixComplete d s t)
    (h1 : IsMixState eq q1) (h2 : IsMixState eq q2) (h : IsMixState eq q) (hm1 : ∀ i, q1.momentum i = 0) (hm2 : ∀ i, q2.momentum i = 0)
    (hrho : q1.density = q2.density) (hp : q1.pressure ≠ q2.pressure) (hqd : q.density = (q1.density + q2.density) / 2)
    (hqm : ∀ i, q.momentum i = (q1.momentum i + q2.momentum i) / 2) (hqe : q.energy = (q1.energy + q2.energy) / 2) :
    (requiredMassflow eq corr dir q1 + requiredMassflow eq corr dir q2) / 2 < requiredMassflow eq corr dir q := by
  obtain ⟨g0, g1, g2⟩ := hv.pos
  have hqm' : ∀ i, q.momentum i = 0 := fun i => by rw [hqm, hm1, hm2]; ring
  rw [required_at_rest eq corr dir q1 h1 (hm1 _), required_at_rest eq corr dir q2 h2 (hm2 _), required_at_rest eq corr dir q h (hqm' _)]
  have e1 := h1.energy_eq
  have e2 := h2.energy_eq
  have e := h.energy_eq
  simp only [hm1] at e1
  simp only [hm2] at e2
  simp only [hqm'] at e
  have hd : q.density = q1.density := by rw [hqd, ← hrho]; ring
  have hpp : q.pressure = (q1.pressure + q2.pressure) / 2 := by
    have hg := hv.one_lt
    have hg1 : eq.gamma - 1 ≠ 0 := by linarith
    rw [e, e1, e2] at hqe
    simp only [ne_eq, OfNat.ofNat_ne_zero, not_false_eq_true, zero_pow, sum_const_zero, zero_div, mul_zero, add_zero] at hqe
    field_simp at hqe
    linarith
  rw [hpp, hd, ← hrho]
  have ha := h1.pressure_pos
  have hb := h2.pressure_pos
  have hc := h1.density_pos
  set a := q1.pressure * q1.density with ha'
  set b := q2.pressure * q1.density with hb'
  have hab : a ≠ b := fun h => hp (mul_right_cancel₀ hc.ne' h)
  have ha0 : 0 < a := by positivity
  have hb0 : 0 < b := by positivity
  have hmid : (q1.pressure + q2.pressure) / 2 * q1.density = (a + b) / 2 := by rw [ha', hb']; ring
  rw [hmid]
  have hlt : (Real.sqrt a + Real.sqrt b) / 2 < Real.sqrt ((a + b) / 2) := by
    refine Real.lt_sqrt_of_sq_lt ?_
    have sa := Real.sq_sqrt ha0.le
    have sb := Real.sq_sqrt hb0.le
    have hne : Real.sqrt a ≠ Real.sqrt b := fun h => hab (by rw [← sa, ← sb, h])
    have := sq_pos_of_ne_zero (sub_ne_zero.2 hne)
    nlinarith
  calc (corr * Real.sqrt a + corr * Real.sqrt b) / 2 = corr * ((Real.sqrt a + Real.sqrt b) / 2) := by ring
    _ < corr * Real.sqrt ((a + b) / 2) := mul_lt_mul_of_pos_left hlt hcorr

/-! ### The mass flow boundary of the ideal gas mixtures -/

section
variable [Field K]

/-- **C188 (volume weighted average).** If the patches of the coarsest level cover the box, the average is the content of the open part of the box by its volume, however the patches are cut and distributed. -/
theorem volume_average (alpha data : Index n → K) (box : IndexBox n) (ranks : List (List (IndexBox n))) (hd : TilesDisjoint ranks.flatten) (hc : TilesCover box ranks.flatten) :
    volumeAverage alpha data box ranks = (∑ i ∈ box.finset, alpha i * data i) / ∑ i ∈ box.finset, alpha i := by
  have hV : openVolume alpha box ranks = ∑ i ∈ box.finset, alpha i := ranks_sum (fun a => a) alpha box ranks hd hc
  rw [volumeAverage, ranks_sum (fun c : K × K => c.1 / openVolume alpha box ranks * c.2) (fun i => (alpha i, data i)) box ranks hd hc, hV, sum_div]
  exact sum_congr rfl fun i _ => by ring

/-- **C188 (closed cells do not count).** -/
theorem volume_average_closed (alpha data data2 : Index n → K) (box : IndexBox n) (ranks : List (List (IndexBox n))) (hd : TilesDisjoint ranks.flatten)
    (hc : TilesCover box ranks.flatten) (h : ∀ i ∈ box.toSet, alpha i ≠ 0 → data i = data2 i) : volumeAverage alpha data box ranks = volumeAverage alpha data2 box ranks := by
  rw [volume_average _ _ _ _ hd hc, volume_average _ _ _ _ hd hc]
  congr 1
  refine sum_congr rfl fun i hi => ?_
  by_cases h0 : alpha i = 0
  · rw [h0]; ring
  · rw [h i ((mem_finset _ _).1 hi) h0]

/-- **C188 (range).** The average lies between the smallest and the largest value of the cells that are not closed. -/
theorem volume_average_range [LinearOrder K] [IsStrictOrderedRing K] (alpha data : Index n → K) (box : IndexBox n) (ranks : List (List (IndexBox n)))
    (hd : TilesDisjoint ranks.flatten) (hc : TilesCover box ranks.flatten) (hα : ∀ i ∈ box.toSet, 0 ≤ alpha i) (hopen : ∃ i ∈ box.toSet, 0 < alpha i) {lo hi : K}
    (h : ∀ i ∈ box.toSet, 0 < alpha i → lo ≤ data i ∧ data i ≤ hi) : lo ≤ volumeAverage alpha data box ranks ∧ volumeAverage alpha data box ranks ≤ hi := by
  rw [volume_average _ _ _ _ hd hc]
  have hV : 0 < ∑ i ∈ box.finset, alpha i := by
    obtain ⟨i, h1, h2⟩ := hopen
    exact sum_pos' (fun i hi => hα i ((mem_finset _ _).1 hi)) ⟨i, (mem_finset _ _).2 h1, h2⟩
  rw [le_div_iff₀ hV, div_le_iff₀ hV, mul_sum, mul_sum]
  constructor
  · refine sum_le_sum fun i hi' => ?_
    have hi' := (mem_finset _ _).1 hi'
    rcases (hα i hi').eq_or_lt with h0 | h0
    · rw [← h0]; simp
    · nlinarith [(h i hi' h0).1]
  · refine sum_le_sum fun i hi' => ?_
    have hi' := (mem_finset _ _).1 hi'
    rcases (hα i hi').eq_or_lt with h0 | h0
    · rw [← h0]; simp
    · nlinarith [(h i hi' h0).2]

/-- **C188 (mass flow boundary).** On every level the open ghost cells of the side get the outer state for the volume weighted average of the coarsest level; the other cells keep their state. -/
theorem cut_massflow_fill (ops : FlowOps K Q κ) (required : K) (inner : IndexBox n) (ranks : List (List (IndexBox n))) (alpha0 : Index n → K) (level0 : Index n → Q)
    (g : Geom n) (ngrow : Int) (valid : IndexBox n) (p : PatchTiles n) (dir : Fin n) (side : Int) (isOpen : Index n → Bool) (data : Index n → Q)
    (hp : IsPatch g ngrow valid p) (hside : side = 0 ∨ side = 1) (hd : TilesDisjoint ranks.flatten) (hc : TilesCover inner ranks.flatten) (s : Q)
    (hs : ops.transform required (ops.complete fun k => (∑ i ∈ inner.finset, alpha0 i * ops.cons (level0 i) k) / ∑ i ∈ inner.finset, alpha0 i) = some s) :
    ∃ data', cutMassflowFill ops required inner ranks alpha0 level0 g ngrow dir side isOpen p data = some data' ∧
      (∀ x, SideCell g p dir side x → isOpen x = true → data' x = s) ∧ (∀ x, ¬(SideCell g p dir side x ∧ isOpen x = true) → data' x = data x) := by
  have hg := hp.ngrow_nonneg
  obtain ⟨hW, hx⟩ := ghost_copies g ngrow valid p hp dir side hside g.domain (fun d => ⟨le_refl _, le_refl _⟩)
    (fun d => by simp only [Geom.grown]; split_ifs <;> omega) ⟨rfl, rfl⟩ (fun _ i => i) id (fun _ _ _ _ _ _ _ => rfl) (fun _ hx _ => hx)
  have hcond : ∀ x ∈ p.fab.toSet, (∀ d, d ≠ dir → (dir < d → g.domain.lower d ≤ x d ∧ x d < g.domain.upper d) ∧
      (d < dir → (g.grown ngrow).lower d ≤ x d ∧ x d < (g.grown ngrow).upper d)) ↔
      ((∀ d, dir < d → g.domain.lower d ≤ x d ∧ x d < g.domain.upper d) ∧
        (∀ d, d < dir → (g.domain.lower d ≤ x d ∧ x d < g.domain.upper d) ∨ g.periodic d = false)) := by
    intro x hx
    constructor
    · exact fun h => ⟨fun d hd => (h d hd.ne').1 hd, fun d hd => (grown_range g ngrow valid p hp x hx d).1 ((h d hd.ne).2 hd)⟩
    · exact fun h d _ => ⟨h.1 d, fun hd => (grown_range g ngrow valid p hp x hx d).2 (h.2 d hd)⟩
  have hR : ∀ x, (∃ q ∈ ghostCopies p.tiles (sideBoxes (boxDiff (g.grown ngrow) g.domain) g.domain dir side ngrow) (fun _ i => i), q.1 = x) ↔
      SideCell g p dir side x := by
    intro x
    rw [hx x]
    constructor
    · rintro ⟨a, b, c, d⟩; exact ⟨a, b, c, (hcond x a).1 d⟩
    · rintro ⟨a, b, c, d⟩; exact ⟨a, b, c, (hcond x a).2 d⟩
  obtain ⟨data', hr, ha, hb⟩ := runMasked_spec p.fab isOpen (fun _ => some s) none id (Beyond g.domain dir side) _ data
    (fun q hq => by
      obtain ⟨h1, h2, h3, h4⟩ := hW q hq
      exact ⟨h1, h2, h3, h4, Or.inr fun _ _ => rfl, fun _ _ => rfl⟩)
  refine ⟨data', ?_, fun x hx ho => ?_, fun x hx => ?_⟩
  · have e : ∀ k, volumeAverage alpha0 (fun i => ops.cons (level0 i) k) inner ranks = (∑ i ∈ inner.finset, alpha0 i * ops.cons (level0 i) k) / ∑ i ∈ inner.finset, alpha0 i :=
      fun k => volume_average _ _ _ _ hd hc
    simp only [cutMassflowFill, e, hs, Option.bind_some]
    exact hr
  · have := ha x ((hR x).2 hx)
    simpa [ho] using this
  · by_cases hc : SideCell g p dir side x
    · have := ha x ((hR x).2 hc)
      have ho : isOpen x ≠ true := fun h => hx ⟨hc, h⟩
      simpa [ho] using this
    · exact hb x fun h => hc ((hR x).1 h)

end

/-! ### Examples -/

/-- A gas with density and one momentum that demands its density times two. -/
def exFlowOps : FlowOps ℚ (ℚ × ℚ) (Fin 2) where
  cons q k := if k = 0 then q.1 else q.2
  complete u := (u 0, u 1)
  required q := 2 * q.1
  transform r q := if 0 < q.1 then some (q.1, r / 3) else none

theorem exFlowOps_reaches : exFlowOps.Reaches 1 3 0 fun _ _ => True := by
  intro r q q' _ h
  simp only [exFlowOps] at h
  split_ifs at h
  obtain rfl := Option.some.inj h
  simp [FlowOps.flow, exFlowOps, mul_div_cancel₀]

def exMirror : IndexBox 2 := ⟨![3, 0], ![4, 3]⟩
def exSection : IndexBox 2 := ⟨![4, 0], ![6, 3]⟩
def exRanks : List (List (IndexBox 2)) := [[⟨![0, 0], ![4, 1]⟩], [⟨![0, 1], ![2, 3]⟩, ⟨![2, 1], ![4, 3]⟩]]

theorem exSection_beyond : ∀ x ∈ exSection.toSet, Beyond exGeom.domain 0 1 x := by
  intro x hx
  have h0 : (4 : Int) ≤ x 0 := (hx 0).1
  exact Or.inr ⟨rfl, h0⟩

theorem exRanks_flatten : exRanks.flatten = [⟨![0, 0], ![4, 1]⟩, ⟨![0, 1], ![2, 3]⟩, ⟨![2, 1], ![4, 3]⟩] := rfl

theorem exRanks_disjoint : TilesDisjoint exRanks.flatten := by
  rw [exRanks_flatten]
  have key : ∀ a b : IndexBox 2, (a.upper 0 ≤ b.lower 0 ∨ a.upper 1 ≤ b.lower 1) → Disjoint a.toSet b.toSet := by
    intro a b h
    refine Set.disjoint_left.2 fun x hx hy => ?_
    have h0 := hx 0; have h1 := hx 1; have k0 := hy 0; have k1 := hy 1
    omega
  refine List.pairwise_cons.2 ⟨fun b hb => ?_, List.pairwise_cons.2 ⟨fun b hb => ?_, List.pairwise_singleton _ _⟩⟩
  · rcases List.mem_cons.1 hb with rfl | hb
    · exact key _ _ (Or.inr (by decide))
    · rw [List.mem_singleton] at hb; subst hb; exact key _ _ (Or.inr (by decide))
  · rw [List.mem_singleton] at hb; subst hb; exact key _ _ (Or.inl (by decide))

theorem exRanks_cover : TilesCover exMirror exRanks.flatten := by
  intro x hx
  have h0 : (3 : Int) ≤ x 0 ∧ x 0 < 4 := hx 0
  have h1 : (0 : Int) ≤ x 1 ∧ x 1 < 3 := hx 1
  by_cases h : x 1 < 1
  · exact ⟨⟨![0, 0], ![4, 1]⟩, by simp [exRanks], fun d => by fin_cases d <;> simp <;> omega⟩
  · exact ⟨⟨![2, 1], ![4, 3]⟩, by simp [exRanks], fun d => by fin_cases d <;> simp <;> omega⟩

theorem exEdge (x : Index 2) : edgeCell exGeom.domain 0 1 x = ![3, x 1] := by
  funext d
  fin_cases d <;> simp [edgeCell, exGeom]

/-- All three modes let the flow 2 · (1 + 2 + 3) pass through the side of the example whose last cells have the densities 1, 2 and 3. -/
example (mode : TurbineMode) (hmode : mode ≠ .averageInnerState) : ∃ data', turbineFill exFlowOps mode exMirror exSection exRanks (fun i => (i 1 + 1, 0)) exGeom 2 0 1 (fun _ => true) (0, 0) exPatch
    (fun i => (i 1 + 1, 0)) = some data' ∧ 3 * ((data' ![4, 0]).2 + (data' ![4, 1]).2 + (data' ![4, 2]).2) = 12 := by
  have hmir : ∀ i ∈ exMirror.toSet, (0 : Int) ≤ i 1 := fun i hi => (hi 1).1
  have hsl : ∀ x : Index 2, (x = ![4, 0] ∨ x = ![4, 1] ∨ x = ![4, 2]) → SectionCell exSection exPatch x ∧ SlabCell exGeom exPatch 0 1 x := by
    rintro x (rfl | rfl | rfl) <;>
      simp [SectionCell, SlabCell, exSection, exPatch, exValid, exGeom, IndexBox.toSet, Fin.forall_fin_two, Beyond]
  obtain ⟨data', h1, h2⟩ := turbine_same_total exFlowOps exMirror exSection exRanks (fun i => (i 1 + 1, 0)) exGeom 2 exValid exPatch 0 1 (fun _ => true) (0, 0) (fun i => (i 1 + 1, 0)) 1 3 0
    (fun _ _ => True) mode hmode exPatch_isPatch (Or.inr rfl) exSection_beyond exRanks_disjoint exRanks_cover exFlowOps_reaches (fun u => rfl) (fun i _ => rfl)
    (fun x hx _ _ => by
      have h1 : (0 : Int) ≤ x 1 ∧ x 1 < 3 := hx.2 1
      rw [exEdge]
      intro d
      fin_cases d
      · exact ⟨le_refl (3 : Int), show (3 : Int) < 4 by decide⟩
      · exact h1)
    (fun _ _ => rfl)
    (fun i hi r _ => ⟨trivial, by
      have : (0 : ℚ) < (i 1 : ℚ) + 1 := by
        have := hmir i hi
        have : (0 : ℚ) ≤ (i 1 : ℚ) := by exact_mod_cast this
        linarith
      simp [exFlowOps, this]⟩)
    {![4, 0], ![4, 1], ![4, 2]} (fun x hx => by
      simp only [Finset.mem_insert, Finset.mem_singleton] at hx
      exact ⟨(hsl x hx).1, (hsl x hx).2, rfl, rfl⟩)
    (by
      refine ⟨fun x hx => ?_, fun x hx y hy he => ?_, fun y hy => ?_⟩
      · simp only [Finset.coe_insert, Finset.coe_singleton, Set.mem_insert_iff, Set.mem_singleton_iff] at hx
        rw [exEdge]
        intro d
        rcases hx with rfl | rfl | rfl <;> fin_cases d <;> decide
      · simp only [Finset.coe_insert, Finset.coe_singleton, Set.mem_insert_iff, Set.mem_singleton_iff] at hx hy
        rw [exEdge, exEdge] at he
        have he1 : x 1 = y 1 := congrFun he 1
        have hx0 : x 0 = 4 := by rcases hx with rfl | rfl | rfl <;> rfl
        have hy0 : y 0 = 4 := by rcases hy with rfl | rfl | rfl <;> rfl
        funext d
        fin_cases d
        · exact hx0.trans hy0.symm
        · exact he1
      · have h0 : (3 : Int) ≤ y 0 ∧ y 0 < 4 := hy 0
        have h1 : (0 : Int) ≤ y 1 ∧ y 1 < 3 := hy 1
        refine ⟨![4, y 1], ?_, ?_⟩
        · simp only [Finset.coe_insert, Finset.coe_singleton, Set.mem_insert_iff, Set.mem_singleton_iff]
          have : y 1 = 0 ∨ y 1 = 1 ∨ y 1 = 2 := by omega
          rcases this with h | h | h <;> simp [h]
        · rw [exEdge]
          funext d
          fin_cases d
          · simp; omega
          · simp)
    ⟨![3, 0], fun d => by fin_cases d <;> decide⟩
  refine ⟨data', h1, ?_⟩
  have hc : exMirror.finset = {![3, 0], ![3, 1], ![3, 2]} := by decide +kernel
  have hne : (![4, 0] : Index 2) ∉ ({![4, 1], ![4, 2]} : Finset (Index 2)) ∧ (![4, 1] : Index 2) ∉ ({![4, 2]} : Finset (Index 2)) := by decide
  have hne' : (![3, 0] : Index 2) ∉ ({![3, 1], ![3, 2]} : Finset (Index 2)) ∧ (![3, 1] : Index 2) ∉ ({![3, 2]} : Finset (Index 2)) := by decide
  rw [mul_zero, abs_nonpos_iff, sub_eq_zero, hc, Finset.sum_insert hne.1, Finset.sum_insert hne.2, Finset.sum_singleton, Finset.sum_insert hne'.1, Finset.sum_insert hne'.2,
    Finset.sum_singleton] at h2
  simp [FlowOps.flow, exFlowOps] at h2
  linarith

theorem exMirror_finset : exMirror.finset = {![3, 0], ![3, 1], ![3, 2]} := by decide +kernel

theorem exMirror_sum (f : Index 2 → ℚ) : ∑ i ∈ exMirror.finset, f i = f ![3, 0] + f ![3, 1] + f ![3, 2] := by
  have hne : (![3, 0] : Index 2) ∉ ({![3, 1], ![3, 2]} : Finset (Index 2)) ∧ (![3, 1] : Index 2) ∉ ({![3, 2]} : Finset (Index 2)) := by decide
  rw [exMirror_finset, Finset.sum_insert hne.1, Finset.sum_insert hne.2, Finset.sum_singleton, add_assoc]

/-- **C188 is false beside the section.** With a section that has only the first of the three rows, the averaged inner state also overwrites the ghost cell of the last row. -/
theorem turbine_section_wrong : ∃ data', turbineFill exFlowOps .averageInnerState exMirror ⟨![4, 0], ![6, 1]⟩ exRanks (fun i => (i 1 + 1, 0)) exGeom 2 0 1 (fun x => decide (x ≠ ![5, 1])) (0, 0)
    exPatch (fun i => (i 1 + 1, 0)) = some data' ∧ (![4, 2] : Index 2) ∉ (⟨![4, 0], ![6, 1]⟩ : IndexBox 2).toSet ∧ 3 * (data' ![4, 2]).2 = 4 ∧ data' ![5, 1] = (0, 0) ∧ data' ![3, 1] = (2, 0) := by
  have hcard : exMirror.finset.card = 3 := by decide +kernel
  obtain ⟨data', s, h1, h2, h3, h4⟩ := turbine_inner_partial exFlowOps exMirror ⟨![4, 0], ![6, 1]⟩ exRanks (fun i => (i 1 + 1, 0)) exGeom 2 exValid exPatch 0 1 (fun x => decide (x ≠ ![5, 1])) (0, 0)
    (fun i => (i 1 + 1, 0)) 1 3 0 (fun _ _ => True) exPatch_isPatch (Or.inr rfl) exRanks_disjoint exRanks_cover exFlowOps_reaches trivial (by
      rw [hcard]; simp only [exMirror_sum]; decide +kernel)
  have hsl : ∀ x : Index 2, (x = ![4, 2] ∨ x = ![5, 1]) → SlabCell exGeom exPatch 0 1 x := by
    rintro x (rfl | rfl) <;> simp [SlabCell, exPatch, exValid, exGeom, IndexBox.toSet, Fin.forall_fin_two, Beyond]
  refine ⟨data', h1, fun h => absurd (h 1).2 (by decide), ?_, ?_, ?_⟩
  · rw [h3 _ (hsl _ (Or.inl rfl)), if_pos (by decide)]
    rw [hcard] at h2
    simp only [exMirror_sum] at h2
    rw [abs_nonpos_iff, sub_eq_zero] at h2
    simp [FlowOps.flow, exFlowOps] at h2
    rw [h2]; norm_num
  · rw [h3 _ (hsl _ (Or.inr rfl)), if_neg (by decide)]
  · rw [h4 _ fun h => by
      rcases h.2.2.1 with ⟨h, -⟩ | ⟨-, h⟩
      · exact absurd h (by decide)
      · exact absurd h (by decide)]
    norm_num

/-- A level that covers one of the three cells of the box: a third of the demanded flow 2. -/
example : ∃ data', turbineFill exFlowOps .averageMassflow exMirror exSection [[⟨![0, 0], ![4, 1]⟩]] (fun _ => (1, 0)) exGeom 2 0 1 (fun _ => true) (0, 0) exPatch
    (fun _ => (1, 0)) = some data' ∧ 3 * (data' ![4, 2]).2 = 2 / 3 := by
  obtain ⟨data', h1, h2⟩ := turbine_level_wrong exFlowOps exMirror exSection [[⟨![0, 0], ![4, 1]⟩]] (fun _ => (1, 0)) exGeom 2 exValid exPatch 0 1 (fun _ => true) (0, 0) (fun _ => (1, 0)) 1 3 0
    (fun _ _ => True) exPatch_isPatch (Or.inr rfl) exSection_beyond (List.pairwise_singleton _ _) exFlowOps_reaches 2 (fun _ => by simp [exFlowOps])
    (fun x _ _ _ r' => ⟨trivial, by simp [exFlowOps]⟩)
  refine ⟨data', h1, ?_⟩
  have h := (h2 ![4, 2] (by simp [SectionCell, exSection, exPatch, exValid, IndexBox.toSet, Fin.forall_fin_two]) rfl rfl).1
  have hc : exMirror.finset.card = 3 := by decide +kernel
  have hv : (visited exMirror [[(⟨![0, 0], ![4, 1]⟩ : IndexBox 2)]].flatten).toFinset.card = 1 := by decide +kernel
  rw [hc, hv, abs_nonpos_iff, sub_eq_zero] at h
  simp [FlowOps.flow, exFlowOps] at h
  rw [h]; norm_num

/-- Air at rest with pressures 1 and 4. -/
example : ∃ q1 q2 q : MixComplete 1 1 1, (requiredMassflow (computeConstants 287 (7 / 5)) 3 0 q1 + requiredMassflow (computeConstants 287 (7 / 5)) 3 0 q2) / 2 <
    requiredMassflow (computeConstants 287 (7 / 5)) 3 0 q := by
  obtain ⟨hv, -⟩ := computeConstants_valid 287 (7 / 5) (by norm_num) (by norm_num)
  have st : ∀ p : ℝ, 0 < p → IsMixState (computeConstants 287 (7 / 5)) (mixFromPrim (d := 1) (s := 1) (t := 1) (computeConstants 287 (7 / 5)) ⟨1, fun _ => 0, p, fun _ => 1 / 2, fun _ => 1⟩) :=
    fun p hp => (mix_prim_roundtrip _ hv _ (by norm_num) hp).1
  refine ⟨_, _, _, inner_demand_differs _ hv 3 (by norm_num) 0 _ _ _ (st 1 (by norm_num)) (st 4 (by norm_num)) (st (5 / 2) (by norm_num)) (fun i => by simp [mixFromPrim]) (fun i => by simp [mixFromPrim])
    rfl ?_ ?_ (fun i => by simp [mixFromPrim]) ?_⟩
  · simp only [mixFromPrim]; norm_num
  · simp only [mixFromPrim]; norm_num
  · simp only [mixFromPrim, gasKinetic]
    simp
    ring

/-- A half open cell counts half, a closed cell not at all. -/
example : volumeAverage (fun i : Index 2 => if i 1 = 0 then 1 else if i 1 = 1 then 1 / 2 else 0) (fun i => (i 1 * 6 + 1 : ℚ)) exMirror exRanks = 3 := by decide +kernel

/-- The mass flow boundary: all open ghost cells of the side have the flow 6. -/
example : ∃ data', cutMassflowFill exFlowOps 6 exMirror exRanks (fun i : Index 2 => if i 1 = 0 then 1 else if i 1 = 1 then 1 / 2 else 0) (fun i => ((i 1 * 6 + 1 : ℚ), 0)) exGeom 2 0 1
    (fun x => decide (x ≠ ![5, 1])) exPatch (fun _ => (9, 9)) = some data' ∧ data' ![4, 2] = (3, 2) ∧ data' ![5, 1] = (9, 9) := by
  obtain ⟨data', h1, h2, h3⟩ := cut_massflow_fill exFlowOps 6 exMirror exRanks (fun i : Index 2 => if i 1 = 0 then 1 else if i 1 = 1 then 1 / 2 else 0) (fun i => ((i 1 * 6 + 1 : ℚ), 0)) exGeom 2
    exValid exPatch 0 1 (fun x => decide (x ≠ ![5, 1])) (fun _ => (9, 9)) exPatch_isPatch (Or.inr rfl) exRanks_disjoint exRanks_cover (3, 2) (by simp only [exMirror_sum]; decide +kernel)
  exact ⟨data', h1, h2 _ (by simp [SideCell, exPatch, exValid, exGeom, IndexBox.toSet, Fin.forall_fin_two, Beyond]) (by decide), h3 _ fun h => absurd h.2 (by decide)⟩

end Fub
