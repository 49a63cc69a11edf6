import Verif.Model.IndexBox
import Verif.Spec.IndexBox
import Mathlib.Tactic.Linarith
import Mathlib.Tactic.FinCases
import Mathlib.Data.Fin.VecNotation

/-! C18 (index boxes) and C19 (ForEachIndex). -/

namespace Fub
open IndexBox
variable {n : Nat}

/-! ### C18 -/

/-- **C18 (membership).** `Contains(box, index)` is membership. -/
theorem contains_iff (b : IndexBox n) (i : Index n) : b.contains i = true ↔ i ∈ b.toSet := by
  simp only [contains, containsBox, toSet, Bool.and_eq_true, List.all_eq_true, List.mem_finRange, true_implies, decide_eq_true_eq,
    Set.mem_setOf_eq]
  constructor
  · rintro ⟨h1, h2⟩ d; exact ⟨h1 d, by have := h2 d; omega⟩
  · intro h; exact ⟨fun d => (h d).1, fun d => by have := (h d).2; omega⟩

/-- **C18 (containment).** `Contains(b1, b2)` implies inclusion of the sets, and is equivalent to it if `b2` is not empty. -/
theorem containsBox_spec (b1 b2 : IndexBox n) :
    (b1.containsBox b2 = true → b2.toSet ⊆ b1.toSet) ∧
    (b2.toSet.Nonempty → (b1.containsBox b2 = true ↔ b2.toSet ⊆ b1.toSet)) := by
  have h1 : b1.containsBox b2 = true → b2.toSet ⊆ b1.toSet := by
    simp only [containsBox, Bool.and_eq_true, List.all_eq_true, List.mem_finRange, true_implies, decide_eq_true_eq]
    rintro ⟨ha, hb⟩ i hi d
    have := ha d; have := hb d; have := hi d
    omega
  refine ⟨h1, fun ⟨i, hi⟩ => ⟨h1, fun hs => ?_⟩⟩
  simp only [containsBox, Bool.and_eq_true, List.all_eq_true, List.mem_finRange, true_implies, decide_eq_true_eq]
  have key : ∀ d : Fin n, ∀ x, b2.lower d ≤ x → x < b2.upper d → b1.lower d ≤ x ∧ x < b1.upper d := by
    intro d x hx hx'
    have hm : Function.update i d x ∈ b2.toSet := by
      intro e
      by_cases he : e = d
      · subst he; simp [hx, hx']
      · simp [Function.update_of_ne he, hi e]
    have := hs hm d
    simpa using this
  refine ⟨fun d => (key d _ le_rfl ?_).1, fun d => ?_⟩
  · have := hi d; omega
  · have := (key d (b2.upper d - 1) (by have := hi d; omega) (by omega)).2
    omega

/-- **C18 (intersection).** `Intersect` is set intersection, also for empty and disjoint boxes, and never returns a box whose upper
bound is below its lower bound. -/
theorem intersect_spec (b1 b2 : IndexBox n) :
    (b1.intersect b2).toSet = b1.toSet ∩ b2.toSet ∧ ∀ d, (b1.intersect b2).lower d ≤ (b1.intersect b2).upper d := by
  constructor
  · ext i
    simp only [toSet, intersect, Set.mem_setOf_eq, Set.mem_inter_iff]
    constructor
    · intro h; constructor <;> intro d <;> have := h d <;> omega
    · rintro ⟨h1, h2⟩ d; have := h1 d; have := h2 d; omega
  · intro d; exact le_max_left _ _

/-- **C18 (grow).** `Grow` moves exactly the two bounds in the given direction outwards: an index is in the grown box iff its coordinate in
that direction is in the widened interval and all others are as before. -/
theorem grow_spec (b : IndexBox n) (d : Fin n) (s0 s1 : Int) (i : Index n) :
    i ∈ (b.grow d s0 s1).toSet ↔
      (b.lower d - s0 ≤ i d ∧ i d < b.upper d + s1) ∧ ∀ e, e ≠ d → b.lower e ≤ i e ∧ i e < b.upper e := by
  simp only [toSet, grow, Set.mem_setOf_eq]
  constructor
  · intro h
    refine ⟨by simpa using h d, fun e he => ?_⟩
    simpa [Function.update_of_ne he] using h e
  · rintro ⟨h1, h2⟩ e
    by_cases he : e = d
    · subst he; simpa using h1
    · simpa [Function.update_of_ne he] using h2 e he

/-- **C18 (shrink).** `Shrink` moves exactly the two bounds in the given direction inwards. -/
theorem shrink_spec (b : IndexBox n) (d : Fin n) (s0 s1 : Int) (i : Index n) :
    i ∈ (b.shrink d s0 s1).toSet ↔
      (b.lower d + s0 ≤ i d ∧ i d < b.upper d - s1) ∧ ∀ e, e ≠ d → b.lower e ≤ i e ∧ i e < b.upper e := by
  have : b.shrink d s0 s1 = b.grow d (-s0) (-s1) := by
    simp only [shrink, grow, sub_neg_eq_add]; rfl
  rw [this, grow_spec]
  simp [sub_eq_add_neg]

/-- **C18 (inverse).** `Shrink` undoes `Grow` and `Grow` undoes `Shrink`, also through empty boxes. -/
theorem grow_shrink (b : IndexBox n) (d : Fin n) (s0 s1 : Int) :
    (b.grow d s0 s1).shrink d s0 s1 = b ∧ (b.shrink d s0 s1).grow d s0 s1 = b := by
  constructor <;> ext e <;> by_cases he : e = d <;> simp [grow, shrink, he]

/-- **C18 (shift).** `Shift` moves the index by `s` in direction `d` only; shifts in the same direction add up, shifts in different
directions commute. -/
theorem shift_spec (i : Index n) (d : Fin n) (s : Int) :
    (shift i d s) d = i d + s ∧ (∀ e, e ≠ d → (shift i d s) e = i e) ∧
    (∀ t, shift (shift i d s) d t = shift i d (s + t)) ∧ shift (shift i d s) d (-s) = i ∧
    (∀ e t, shift (shift i d s) e t = shift (shift i e t) d s) := by
  refine ⟨by simp [shift], fun e he => by simp [shift, he], fun t => ?_, ?_, fun e t => ?_⟩
  · funext e; by_cases he : e = d <;> simp [shift, he, add_assoc]
  · funext e; by_cases he : e = d <;> simp [shift, he]
  · funext k
    by_cases hd : d = e
    · subst hd; by_cases hk : k = d <;> simp [shift, hk]; omega
    · by_cases hk : k = d
      · subst hk; simp [shift, hd]
      · by_cases hk' : k = e
        · subst hk'; simp [shift, hk]
        · simp [shift, hk, hk']

/-- **C18 (face neighbours).** Number the face between cell `c` and its right neighbour like the right neighbour. Then `LeftTo` and
`RightTo` of a face are the two cells it separates, and `LeftTo(face, s)` / `RightTo(face, s)` are the `s`-th cells to the left and right. -/
theorem face_neighbours (c : Index n) (d : Fin n) (s : Int) :
    leftTo (shift c d 1) d = c ∧ rightTo (shift c d 1) d = shift c d 1 ∧
    leftTo (shift c d 1) d s = shift c d (1 - s) ∧ rightTo (shift c d 1) d s = shift c d s := by
  have h := (shift_spec c d 1).2.2
  refine ⟨h.2.1, ?_, ?_, ?_⟩
  · rw [rightTo, h.1]; rfl
  · rw [leftTo, h.1]; rfl
  · rw [rightTo, h.1]; congr 1; omega

/-- **C18 (embed/project).** Projecting an embedded box gives the box back; embedding takes the product with the interval. -/
theorem embed_project (b : IndexBox n) (l u : Int) :
    project (Nat.le_succ n) (b.embed l u) = b ∧
    (∀ (i : Index n) (c : Int), (Fin.snoc i c : Index (n + 1)) ∈ (b.embed l u).toSet ↔ i ∈ b.toSet ∧ l ≤ c ∧ c < u) ∧
    (∀ b' : IndexBox (n + 1), (project (Nat.le_succ n) b').embed (b'.lower (Fin.last n)) (b'.upper (Fin.last n)) = b') := by
  have hc : ∀ d : Fin n, Fin.castLE (Nat.le_succ n) d = Fin.castSucc d := fun d => rfl
  refine ⟨?_, fun i c => ?_, fun b' => ?_⟩
  · ext d <;> simp [project, embed, hc]
  · simp only [toSet, embed, Set.mem_setOf_eq, Fin.forall_fin_succ', Fin.snoc_castSucc, Fin.snoc_last]
  · ext d <;> refine Fin.lastCases ?_ (fun d => ?_) d <;> simp [project, embed, hc]

/-- **C18 (neighbourhood).** `Neighborhood(i, w)` is the set of indices at maximum distance `w`. -/
theorem neighborhood_spec (i j : Index n) (w : Int) : j ∈ (neighborhood i w).toSet ↔ ∀ d, |j d - i d| ≤ w := by
  simp only [toSet, neighborhood, Set.mem_setOf_eq, abs_le]
  exact forall_congr' fun d => by omega

/-- The hypotheses are met by proper boxes: a non-empty box inside another, overlapping boxes, an empty one. -/
example : ((⟨![0, -2], ![4, 3]⟩ : IndexBox 2).containsBox ⟨![1, 0], ![2, 3]⟩ = true) ∧
    ((⟨![1, 0], ![2, 3]⟩ : IndexBox 2).toSet.Nonempty) ∧
    (⟨![0, 0], ![4, 4]⟩ : IndexBox 2).intersect ⟨![2, -1], ![9, 2]⟩ = ⟨![2, 0], ![4, 2]⟩ ∧
    (⟨![0, 0], ![4, 4]⟩ : IndexBox 2).intersect ⟨![7, 0], ![9, 2]⟩ = ⟨![7, 0], ![7, 2]⟩ := by
  refine ⟨by decide, ⟨![1, 0], ?_⟩, ?_, ?_⟩
  · intro d; fin_cases d <;> decide
  · ext d <;> fin_cases d <;> decide
  · ext d <;> fin_cases d <;> decide

/-! ### C19 -/

theorem mem_loopRange (l u x : Int) : x ∈ loopRange l u ↔ l ≤ x ∧ x < u := by
  simp only [loopRange, List.mem_map, List.mem_range]
  constructor
  · rintro ⟨k, hk, rfl⟩; omega
  · rintro ⟨h1, h2⟩; exact ⟨(x - l).toNat, by omega, by omega⟩

theorem pairwise_loopRange (l u : Int) : (loopRange l u).Pairwise (· < ·) := by
  rw [loopRange, List.pairwise_map]
  exact List.pairwise_lt_range.imp (fun h => by omega)

/-- **C19.** `ForEachIndex` over a box of any rank calls the function with exactly the indices of the box, each one once and in
column-major order (the first coordinate varies fastest). -/
theorem forEachIndex_spec (b : IndexBox n) :
    (∀ i, i ∈ forEachIndex b ↔ i ∈ b.toSet) ∧ (forEachIndex b).Pairwise ColMajorLT ∧ (forEachIndex b).Nodup := by
  have main : (∀ i, i ∈ forEachIndex b ↔ i ∈ b.toSet) ∧ (forEachIndex b).Pairwise ColMajorLT := by
    induction n with
    | zero =>
      refine ⟨fun i => ?_, by simp [forEachIndex]⟩
      simp only [forEachIndex, List.mem_singleton, toSet, Set.mem_setOf_eq]
      exact ⟨fun _ d => d.elim0, fun _ => funext fun d => d.elim0⟩
    | succ n ih =>
      obtain ⟨ih1, ih2⟩ := ih ⟨Fin.init b.lower, Fin.init b.upper⟩
      constructor
      · intro i
        simp only [forEachIndex, List.mem_flatMap, List.mem_map, mem_loopRange, ih1, toSet, Set.mem_setOf_eq]
        constructor
        · rintro ⟨c, hc, j, hj, rfl⟩ d
          refine Fin.lastCases ?_ (fun d => ?_) d
          · simpa using hc
          · simpa [Fin.init] using hj d
        · intro h
          exact ⟨i (Fin.last n), h _, Fin.init i, fun d => h _, Fin.snoc_init_self i⟩
      · rw [forEachIndex, List.pairwise_flatMap]
        constructor
        · intro c _
          rw [List.pairwise_map]
          refine ih2.imp ?_
          rintro i j ⟨d, hd, he⟩
          refine ⟨d.castSucc, by simpa using hd, fun e => ?_⟩
          refine Fin.lastCases ?_ (fun e => ?_) e
          · simp
          · intro h; simpa using he e (by simpa using h)
        · refine (pairwise_loopRange _ _).imp ?_
          intro a c hac x hx y hy
          simp only [List.mem_map] at hx hy
          obtain ⟨i, _, rfl⟩ := hx
          obtain ⟨j, _, rfl⟩ := hy
          exact ⟨Fin.last n, by simpa using hac, fun e he => absurd he (not_lt.2 (Fin.le_last e))⟩
  refine ⟨main.1, main.2, main.2.imp ?_⟩
  rintro i j ⟨d, hd, _⟩ rfl
  exact lt_irrefl _ hd

/-- **C19 (mappings).** `ForEachIndex` over a mapping visits exactly the in-range multi-indices of its extents. -/
theorem forEachIndexMapping_spec (ext : Index n) :
    (∀ i, i ∈ forEachIndexMapping ext ↔ ∀ d, 0 ≤ i d ∧ i d < ext d) ∧ (forEachIndexMapping ext).Pairwise ColMajorLT :=
  ⟨(forEachIndex_spec ⟨fun _ => 0, ext⟩).1, (forEachIndex_spec ⟨fun _ => 0, ext⟩).2.1⟩

/-- The loops as they are written in the code for rank 2 and 3 are the recursion of the model. -/
theorem forEachIndex_two (b : IndexBox 2) : forEachIndex b =
    (loopRange (b.lower 1) (b.upper 1)).flatMap fun i => (loopRange (b.lower 0) (b.upper 0)).map fun j => ![j, i] := by
  simp only [forEachIndex, List.map_flatMap, List.map_cons, List.map_nil]
  congr 1
  funext i
  rw [show (fun a : Int => [(Fin.snoc (Fin.snoc Fin.elim0 a : Index 1) i : Index 2)]) =
    fun a => [![a, i]] from by
      funext a; congr 1; funext d; fin_cases d <;> rfl]
  exact (List.map_eq_flatMap ..).symm

example : forEachIndex (⟨![0, 5], ![2, 7]⟩ : IndexBox 2) = [![0, 5], ![1, 5], ![0, 6], ![1, 6]] := by
  rw [forEachIndex_two]; decide

end Fub
