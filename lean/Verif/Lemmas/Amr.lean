import Verif.Spec.Amr
import Verif.Spec.Splitting
import Verif.Spec.LevelIntegrator
import Verif.Props.IndexBox
import Mathlib.Algebra.BigOperators.Ring.Finset
import Mathlib.Algebra.BigOperators.Field
import Mathlib.Tactic.Ring
import Mathlib.Tactic.FieldSimp
import Mathlib.Tactic.LinearCombination

/-!
Flow sums over sets of cells.
-/

namespace Fub
open Finset
variable {n : Nat} {K X : Type} [Field K]

/-- Flow into the cells `U` from the cells `Q`. -/
def flowInto (d : Fin n) (U : Finset (Index n)) (Q : Index n → Prop) [DecidablePred Q] (F : Index n → K) : K :=
  ∑ i ∈ U.filter (fun i => Q (shift i d (-1))), F i - ∑ i ∈ U.filter (fun i => Q (shift i d 1)), F (shift i d 1)

theorem shift_pm (i : Index n) (d : Fin n) : shift (shift i d 1) d (-1) = i ∧ shift (shift i d (-1)) d 1 = i :=
  ⟨(shift_spec i d 1).2.2.2.1, by simpa using (shift_spec i d (-1)).2.2.2.1⟩

/-- Reindexing of faces between right cells `P` and left cells `Q`. -/
theorem sum_faces (d : Fin n) (P Q : Finset (Index n)) (F : Index n → K) :
    ∑ i ∈ P.filter (fun i => shift i d (-1) ∈ Q), F i = ∑ i ∈ Q.filter (fun i => shift i d 1 ∈ P), F (shift i d 1) := by
  refine sum_bij' (fun i _ => shift i d (-1)) (fun i _ => shift i d 1) ?_ ?_ ?_ ?_ ?_
  · intro i hi; rw [mem_filter] at hi ⊢; exact ⟨hi.2, by rw [(shift_pm i d).2]; exact hi.1⟩
  · intro i hi; rw [mem_filter] at hi ⊢; exact ⟨hi.2, by rw [(shift_pm i d).1]; exact hi.1⟩
  · intro i _; exact (shift_pm i d).2
  · intro i _; exact (shift_pm i d).1
  · intro i _; rw [(shift_pm i d).2]

theorem flowInto_antisymm (d : Fin n) (P Q : Finset (Index n)) (F : Index n → K) :
    flowInto d P (· ∈ Q) F = -flowInto d Q (· ∈ P) F := by
  unfold flowInto
  rw [sum_faces d P Q, sum_faces d Q P]; ring

theorem flowInto_self (d : Fin n) (U : Finset (Index n)) (F : Index n → K) : flowInto d U (· ∈ U) F = 0 := by
  unfold flowInto; rw [sum_faces]; ring

theorem flowInto_all (d : Fin n) (U : Finset (Index n)) (F : Index n → K) :
    ∑ i ∈ U, (F i - F (shift i d 1)) = flowInto d U (fun i => ¬ i ∈ U) F := by
  have h := flowInto_self d U F
  unfold flowInto at h ⊢
  rw [sum_sub_distrib, ← sum_filter_add_sum_filter_not U (fun i => shift i d (-1) ∈ U) (fun i => F i),
    ← sum_filter_add_sum_filter_not U (fun i => shift i d 1 ∈ U) (fun i => F (shift i d 1))]
  linear_combination h

/-- Splitting the other side into disjoint parts. -/
theorem flowInto_split (d : Fin n) (U : Finset (Index n)) (Q A B : Index n → Prop) [DecidablePred Q] [DecidablePred A] [DecidablePred B]
    (F : Index n → K) (h : ∀ i ∈ U, ∀ s : Int, s = 1 ∨ s = -1 → (Q (shift i d s) ↔ A (shift i d s) ∨ B (shift i d s)) ∧
      ¬ (A (shift i d s) ∧ B (shift i d s))) :
    flowInto d U Q F = flowInto d U A F + flowInto d U B F := by
  have key : ∀ (s : Int) (hs : s = 1 ∨ s = -1) (G : Index n → K), ∑ i ∈ U.filter (fun i => Q (shift i d s)), G i =
      ∑ i ∈ U.filter (fun i => A (shift i d s)), G i + ∑ i ∈ U.filter (fun i => B (shift i d s)), G i := by
    intro s hs G
    rw [← sum_union]
    · refine sum_congr ?_ fun _ _ => rfl
      ext i
      simp only [mem_filter, mem_union]
      constructor
      · rintro ⟨h1, h2⟩
        rcases ((h i h1 s hs).1).1 h2 with h3 | h3
        · exact .inl ⟨h1, h3⟩
        · exact .inr ⟨h1, h3⟩
      · rintro (⟨h1, h2⟩ | ⟨h1, h2⟩)
        · exact ⟨h1, ((h i h1 s hs).1).2 (.inl h2)⟩
        · exact ⟨h1, ((h i h1 s hs).1).2 (.inr h2)⟩
    · rw [disjoint_left]
      intro i h1 h2
      rw [mem_filter] at h1 h2
      exact (h i h1.1 s hs).2 ⟨h1.2, h2.2⟩
  unfold flowInto
  rw [key (-1) (.inr rfl), key 1 (.inl rfl)]; ring

theorem flowInto_congr (d : Fin n) (U : Finset (Index n)) (Q A : Index n → Prop) [DecidablePred Q] [DecidablePred A]
    (F : Index n → K) (h : ∀ i ∈ U, ∀ s : Int, s = 1 ∨ s = -1 → (Q (shift i d s) ↔ A (shift i d s))) :
    flowInto d U Q F = flowInto d U A F := by
  unfold flowInto
  congr 1
  · refine sum_congr (filter_congr fun i hi => h i hi _ (.inr rfl)) fun _ _ => rfl
  · refine sum_congr (filter_congr fun i hi => h i hi _ (.inl rfl)) fun _ _ => rfl

/-- Cells without a neighbour in `Q` do not matter. -/
theorem flowInto_mono (d : Fin n) (U V : Finset (Index n)) (Q : Index n → Prop) [DecidablePred Q] (F : Index n → K) (hUV : U ⊆ V)
    (h : ∀ i ∈ V, i ∉ U → ∀ s : Int, s = 1 ∨ s = -1 → ¬ Q (shift i d s)) : flowInto d V Q F = flowInto d U Q F := by
  unfold flowInto
  congr 1
  · refine sum_congr ?_ fun _ _ => rfl
    ext i
    simp only [mem_filter]
    constructor
    · rintro ⟨h1, h2⟩
      by_cases hu : i ∈ U
      · exact ⟨hu, h2⟩
      · exact absurd h2 (h i h1 hu _ (.inr rfl))
    · rintro ⟨h1, h2⟩; exact ⟨hUV h1, h2⟩
  · refine sum_congr ?_ fun _ _ => rfl
    ext i
    simp only [mem_filter]
    constructor
    · rintro ⟨h1, h2⟩
      by_cases hu : i ∈ U
      · exact ⟨hu, h2⟩
      · exact absurd h2 (h i h1 hu _ (.inl rfl))
    · rintro ⟨h1, h2⟩; exact ⟨hUV h1, h2⟩

theorem flowInto_add (d : Fin n) (U : Finset (Index n)) (Q : Index n → Prop) [DecidablePred Q] (F G : Index n → K) (c : K) :
    flowInto d U Q (fun i => F i + c * G i) = flowInto d U Q F + c * flowInto d U Q G := by
  unfold flowInto
  rw [sum_add_distrib, sum_add_distrib, ← mul_sum, ← mul_sum]; ring

/-! ### Coarse and fine faces -/

theorem mem_fineCells (r : Nat) (hr : 0 < r) (j i : Index n) : i ∈ fineCells r j ↔ coarseOf r i = j := by
  simp only [fineCells, Fintype.mem_piFinset, mem_Ico, funext_iff, coarseOf]
  refine forall_congr' fun d => ?_
  have hr' : (0 : Int) < r := by exact_mod_cast hr
  rw [Int.ediv_eq_iff_of_pos hr']
  constructor
  · rintro ⟨h1, h2⟩; constructor <;> nlinarith
  · rintro ⟨h1, h2⟩; constructor <;> nlinarith

theorem coarse_shift_ne (r : Nat) (hr : 0 < r) (d : Fin n) (i : Index n) (h : coarseOf r (shift i d (-1)) ≠ coarseOf r i) :
    coarseOf r (shift i d (-1)) = shift (coarseOf r i) d (-1) ∧ i d = r * (coarseOf r i d) := by
  have hr' : (0 : Int) < r := by exact_mod_cast hr
  have hd : i d = r * (i d / r) := by
    by_contra hne
    apply h
    funext e
    by_cases he : e = d
    · subst he
      simp only [coarseOf, shift, Function.update_self]
      rw [Int.ediv_eq_iff_of_pos hr']
      have h1 := Int.emod_nonneg (i e) hr'.ne'
      have h2 := Int.emod_lt_of_pos (i e) hr'
      have h3 := Int.mul_ediv_add_emod (i e) r
      constructor
      · have : 0 < i e % r := by
          rcases h1.lt_or_eq with h4 | h4
          · exact h4
          · exfalso; apply hne; rw [← h4] at h3; linarith
        nlinarith
      · nlinarith
    · simp [coarseOf, shift, he]
  refine ⟨?_, hd⟩
  funext e
  by_cases he : e = d
  · subst he
    simp only [coarseOf, shift, Function.update_self]
    rw [Int.ediv_eq_iff_of_pos hr']
    constructor <;> nlinarith
  · simp [coarseOf, shift, he]

theorem mem_fineFaces (r : Nat) (hr : 0 < r) (d : Fin n) (j i : Index n) :
    i ∈ fineFaces r d j ↔ coarseOf r i = j ∧ coarseOf r (shift i d (-1)) = shift j d (-1) := by
  have hr' : (0 : Int) < r := by exact_mod_cast hr
  simp only [fineFaces, Fintype.mem_piFinset]
  constructor
  · intro h
    have h1 : coarseOf r i = j := by
      funext e
      have := h e
      by_cases he : e = d
      · subst he
        simp only [if_true, mem_singleton] at this
        rw [coarseOf, this]; exact Int.mul_ediv_cancel_left _ hr'.ne'
      · simp only [if_neg he, mem_Ico] at this
        rw [coarseOf, Int.ediv_eq_iff_of_pos hr']
        constructor <;> nlinarith
    refine ⟨h1, ?_⟩
    have hd := h d
    simp only [if_true, mem_singleton] at hd
    rw [← h1]
    refine (coarse_shift_ne r hr d i ?_).1
    intro hc
    have := congrFun hc d
    simp only [coarseOf, shift, Function.update_self, hd] at this
    rw [Int.mul_ediv_cancel_left _ hr'.ne', Int.ediv_eq_iff_of_pos hr'] at this
    nlinarith [this.1]
  · rintro ⟨h1, h2⟩ e
    by_cases he : e = d
    · subst he
      simp only [if_true, mem_singleton]
      have := (coarse_shift_ne r hr e i (by
        rw [h1, h2]; intro h; have := congrFun h e; simp [shift] at this)).2
      rw [this, h1]
    · simp only [if_neg he, mem_Ico]
      have := congrFun h1 e
      rw [coarseOf, Int.ediv_eq_iff_of_pos hr'] at this
      constructor <;> nlinarith [this.1, this.2]

/-- Faces between a fine region and the fine cells around it are the fine faces of the coarse faces. -/
theorem sum_fineFaces (r : Nat) (hr : 0 < r) (d : Fin n) (P Q P' Q' : Finset (Index n)) (hdis : ∀ i ∈ P, i ∉ Q)
    (hP : ∀ i, i ∈ P' ↔ coarseOf r i ∈ P) (hQ : ∀ i, i ∈ Q' ↔ coarseOf r i ∈ Q) (F : Index n → K) :
    ∑ j ∈ P.filter (fun j => shift j d (-1) ∈ Q), ∑ i ∈ fineFaces r d j, F i = ∑ i ∈ P'.filter (fun i => shift i d (-1) ∈ Q'), F i := by
  rw [← sum_fiberwise_of_maps_to (s := P'.filter (fun i => shift i d (-1) ∈ Q')) (t := P.filter (fun j => shift j d (-1) ∈ Q))
    (g := coarseOf r)]
  · refine sum_congr rfl fun j hj => sum_congr ?_ fun _ _ => rfl
    ext i
    rw [mem_filter] at hj
    simp only [mem_filter, mem_fineFaces r hr, hP, hQ]
    constructor
    · rintro ⟨h1, h2⟩; exact ⟨⟨h1 ▸ hj.1, h2 ▸ hj.2⟩, h1⟩
    · rintro ⟨⟨h1, h2⟩, rfl⟩
      exact ⟨rfl, (coarse_shift_ne r hr d i (fun h => hdis _ h1 (h ▸ h2))).1⟩
  · intro i hi
    simp only [mem_filter, hP, hQ] at hi ⊢
    refine ⟨hi.1, ?_⟩
    rw [← (coarse_shift_ne r hr d i (fun h => hdis _ hi.1 (h ▸ hi.2))).1]
    exact hi.2

theorem flowInto_fine (r : Nat) (hr : 0 < r) (d : Fin n) (P Q P' Q' : Finset (Index n)) (hdis : ∀ i ∈ P, i ∉ Q)
    (hP : ∀ i, i ∈ P' ↔ coarseOf r i ∈ P) (hQ : ∀ i, i ∈ Q' ↔ coarseOf r i ∈ Q) (F : Index n → K) :
    flowInto d P (· ∈ Q) (fun j => ∑ i ∈ fineFaces r d j, F i) = flowInto d P' (· ∈ Q') F := by
  unfold flowInto
  rw [sum_fineFaces r hr d P Q P' Q' hdis hP hQ F]
  congr 1
  rw [← sum_faces d Q P (fun j => ∑ i ∈ fineFaces r d j, F i), sum_fineFaces r hr d Q P Q' P' (fun i h1 h2 => hdis i h2 h1) hQ hP F,
    sum_faces]

end Fub
