import Verif.Lemmas.NodalRelax
import Verif.Model.NodalRelaxLin
import Verif.Props.NodalHelmLin

/-!
The energy of the nodal operator for linear velocities, for fields that vanish outside of a finite set of nodes.
-/

namespace Fub

/-- The operator without mask. -/
noncomputable def linStencil (c : LinCoef ℤ ℤ ℝ) (x : ℤ → ℤ → ℝ) (i j : ℤ) : ℝ :=
  let facx := (1 / 8) * c.dxinv * c.dxinv
  let facy := (1 / 8) * c.dyinv * c.dyinv
  x (i - 1) (j - 1) * (facx + facy) * c.sig (i - 1) (j - 1)
    + x (i + 1) (j - 1) * (facx + facy) * c.sig i (j - 1)
    + x (i - 1) (j + 1) * (facx + facy) * c.sig (i - 1) j
    + x (i + 1) (j + 1) * (facx + facy) * c.sig i j
    + x (i - 1) j * (3 * facx - facy) * (c.sig (i - 1) (j - 1) + c.sig (i - 1) j)
    + x (i + 1) j * (3 * facx - facy) * (c.sig i (j - 1) + c.sig i j)
    + x i (j - 1) * (3 * facy - facx) * (c.sig (i - 1) (j - 1) + c.sig i (j - 1))
    + x i (j + 1) * (3 * facy - facx) * (c.sig (i - 1) j + c.sig i j)
    + x i j * (-3) * (facx + facy) * (c.sig (i - 1) (j - 1) + c.sig i (j - 1) + c.sig (i - 1) j + c.sig i j)
    + x i j * c.alp i j

theorem linApply_unmasked {c : LinCoef ℤ ℤ ℝ} {msk : ℤ → ℤ → Bool} {x : ℤ → ℤ → ℝ} {i j : ℤ} (h : msk i j = false) : linApply c msk x i j = linStencil c x i j := by
  simp only [linApply, h, Bool.false_eq_true, if_false, linStencil]

theorem linDiag_neg {c : LinCoef ℤ ℤ ℝ} (hc : c.Valid) (i j : ℤ) : linDiag c i j < 0 := by
  simp only [linDiag]
  have hs : 0 < c.sig (i - 1) (j - 1) + c.sig i (j - 1) + c.sig (i - 1) j + c.sig i j :=
    add_pos (add_pos (add_pos (hc.sig_pos _ _) (hc.sig_pos _ _)) (hc.sig_pos _ _)) (hc.sig_pos _ _)
  have hp : 0 < 1 / 8 * c.dxinv * c.dxinv + 1 / 8 * c.dyinv * c.dyinv := by
    have := mul_self_pos.2 hc.dx; have := mul_self_pos.2 hc.dy; linarith
  have := mul_pos hp hs
  have := hc.alp_nonpos i j
  linarith

/-- A cell with zero energy has the same value in its corners. -/
theorem lin_energy_flat {c : LinCoef ℤ ℤ ℝ} (hc : c.Valid) {x : ℤ → ℤ → ℝ} {i j : ℤ} (h : linEnergy c x x i j = 0) :
    x (i + 1) j = x i j ∧ x i (j + 1) = x i j ∧ x (i + 1) (j + 1) = x i j := by
  have e := lin_energy_zero hc h
  refine ⟨e.1, e.2, ?_⟩
  have h1 : 0 ≤ cellTwist x i j * cellTwist x i j := mul_self_nonneg _
  have hp : 0 < (c.dxinv ^ 2 + c.dyinv ^ 2) / 8 := by
    have := sq_pos_of_ne_zero hc.dx; have := sq_nonneg c.dyinv; linarith
  have h2 := mul_nonneg hp.le h1
  have h3 := mul_self_nonneg (cellGradX c.dxinv x i j)
  have h4 := mul_self_nonneg (cellGradY c.dyinv x i j)
  unfold linEnergy at h
  have h5 : (c.dxinv ^ 2 + c.dyinv ^ 2) / 8 * (cellTwist x i j * cellTwist x i j) = 0 := by linarith
  have h6 := mul_self_eq_zero.1 ((mul_eq_zero.1 h5).resolve_left hp.ne')
  unfold cellTwist at h6
  rw [e.1, e.2] at h6
  linarith

/-- The form without restriction to a finite dimensional space. -/
noncomputable def linForm (c : LinCoef ℤ ℤ ℝ) (S : Finset (ℤ × ℤ)) (x y : ℤ → ℤ → ℝ) : ℝ :=
  ∑ q ∈ touched S, c.sig q.1 q.2 * (linEnergy c x y q.1 q.2)
    - ∑ p ∈ S, c.alp p.1 p.2 * x p.1 p.2 * y p.1 p.2

theorem linForm_symm (c : LinCoef ℤ ℤ ℝ) (S : Finset (ℤ × ℤ)) (x y : ℤ → ℤ → ℝ) : linForm c S x y = linForm c S y x := by
  unfold linForm
  congr 1
  · exact Finset.sum_congr rfl fun _ _ => by unfold linEnergy; ring
  · exact Finset.sum_congr rfl fun _ _ => by ring

theorem linForm_add (c : LinCoef ℤ ℤ ℝ) (S : Finset (ℤ × ℤ)) (x y z : ℤ → ℤ → ℝ) :
    linForm c S x (fun i j => y i j + z i j) = linForm c S x y + linForm c S x z := by
  unfold linForm
  have e1 : ∀ q : ℤ × ℤ, c.sig q.1 q.2 * linEnergy c x (fun i j => y i j + z i j) q.1 q.2
      = c.sig q.1 q.2 * linEnergy c x y q.1 q.2 + c.sig q.1 q.2 * linEnergy c x z q.1 q.2 := by
    intro q; simp only [linEnergy, cellGradX, cellGradY, cellTwist]; ring
  have e2 : ∀ p : ℤ × ℤ, c.alp p.1 p.2 * x p.1 p.2 * (y p.1 p.2 + z p.1 p.2) = c.alp p.1 p.2 * x p.1 p.2 * y p.1 p.2 + c.alp p.1 p.2 * x p.1 p.2 * z p.1 p.2 := by
    intro p; ring
  simp only [e1, e2, Finset.sum_add_distrib]
  ring

theorem linForm_smul (c : LinCoef ℤ ℤ ℝ) (S : Finset (ℤ × ℤ)) (x y : ℤ → ℤ → ℝ) (t : ℝ) :
    linForm c S x (fun i j => t * y i j) = t * linForm c S x y := by
  unfold linForm
  rw [mul_sub, Finset.mul_sum, Finset.mul_sum]
  congr 1
  · exact Finset.sum_congr rfl fun q _ => by simp only [linEnergy, cellGradX, cellGradY, cellTwist]; ring
  · exact Finset.sum_congr rfl fun p _ => by ring

/-- The form on the finite dimensional space of the fields on `S`. -/
noncomputable def linB (c : LinCoef ℤ ℤ ℝ) (S : Finset (ℤ × ℤ)) : (S → ℝ) →ₗ[ℝ] (S → ℝ) →ₗ[ℝ] ℝ :=
  LinearMap.mk₂ ℝ (fun v w => linForm c S (extField S v) (extField S w))
    (fun v v' w => by
      rw [linForm_symm, linForm_symm c S (extField S v), linForm_symm c S (extField S v'), ← linForm_add]
      congr 1; funext i j; exact extField_add S v v' i j)
    (fun t v w => by
      rw [linForm_symm, linForm_symm c S (extField S v), smul_eq_mul, ← linForm_smul]
      congr 1; funext i j; exact extField_smul S t v i j)
    (fun v w w' => by
      rw [← linForm_add]; congr 1; funext i j; exact extField_add S w w' i j)
    (fun t v w => by
      rw [smul_eq_mul, ← linForm_smul]; congr 1; funext i j; exact extField_smul S t w i j)

theorem linB_apply (c : LinCoef ℤ ℤ ℝ) (S : Finset (ℤ × ℤ)) (v w : S → ℝ) : linB c S v w = linForm c S (extField S v) (extField S w) := rfl

theorem linB_symm (c : LinCoef ℤ ℤ ℝ) (S : Finset (ℤ × ℤ)) (v w : S → ℝ) : linB c S v w = linB c S w v := linForm_symm c S _ _

/-- Testing with a node gives minus the operator at this node. -/
theorem linForm_delta {c : LinCoef ℤ ℤ ℝ} {S : Finset (ℤ × ℤ)} {p : ℤ × ℤ} (hp : p ∈ S) (x : ℤ → ℤ → ℝ) :
    linForm c S x (nodeDelta p) = -linStencil c x p.1 p.2 := by
  obtain ⟨i, j⟩ := p
  have hsub : cellsAt (i, j) ⊆ touched S := Finset.subset_biUnion_of_mem cellsAt hp
  unfold linForm
  rw [← Finset.sum_subset hsub, sum_cellsAt, Finset.sum_eq_single (i, j)]
  · have a1 : ∀ a : ℤ, ¬ a - 1 = a := by intro a; omega
    have a2 : ∀ a : ℤ, ¬ a + 1 = a := by intro a; omega
    simp only [linEnergy, cellGradX, cellGradY, cellTwist, nodeDelta, a1, a2, sub_add_cancel, false_and, and_false, if_false, and_self, if_true, linStencil]
    ring
  · intro q _ hq
    have : nodeDelta (i, j) q.1 q.2 = 0 := if_neg fun h => hq (Prod.ext h.1 h.2)
    rw [this]; ring
  · intro h; exact absurd hp h
  · intro q _ hq
    have hz : ∀ a b : ℤ, (a = q.1 ∨ a = q.1 + 1) → (b = q.2 ∨ b = q.2 + 1) → nodeDelta (i, j) a b = 0 := by
      intro a b ha hb
      refine if_neg ?_
      rintro ⟨rfl, rfl⟩
      apply hq
      obtain ⟨q1, q2⟩ := q
      simp only at ha hb
      simp only [cellsAt, Finset.mem_insert, Finset.mem_singleton, Prod.mk.injEq]
      omega
    simp only [linEnergy, cellGradX, cellGradY, cellTwist]
    rw [hz q.1 q.2 (Or.inl rfl) (Or.inl rfl), hz (q.1 + 1) q.2 (Or.inr rfl) (Or.inl rfl), hz q.1 (q.2 + 1) (Or.inl rfl) (Or.inr rfl), hz (q.1 + 1) (q.2 + 1) (Or.inr rfl) (Or.inr rfl)]
    ring

theorem linStencil_delta (c : LinCoef ℤ ℤ ℝ) (p : ℤ × ℤ) : linStencil c (nodeDelta p) p.1 p.2 = linDiag c p.1 p.2 := by
  obtain ⟨i, j⟩ := p
  have a1 : ∀ a : ℤ, ¬ a - 1 = a := by intro a; omega
  have a2 : ∀ a : ℤ, ¬ a + 1 = a := by intro a; omega
  simp only [linStencil, linDiag, nodeDelta, a1, a2, false_and, and_false, if_false, and_self, if_true]
  ring

section Form
variable {c : LinCoef ℤ ℤ ℝ} {S : Finset (ℤ × ℤ)}

theorem linB_single (v : S → ℝ) (p : S) :
    linB c S v (Pi.single p 1) = -linStencil c (extField S v) p.1.1 p.1.2 := by
  rw [linB_apply, extField_single, linForm_delta p.2]

theorem linB_sum (v w : S → ℝ) :
    linB c S v w = ∑ p, w p * -linStencil c (extField S v) p.1.1 p.1.2 := by
  have hw : w = ∑ p, w p • (Pi.single p (1 : ℝ) : S → ℝ) := by
    funext q
    rw [Finset.sum_apply, Finset.sum_eq_single q]
    · simp
    · intro b _ hb; simp [Ne.symm hb]
    · intro h; exact absurd (Finset.mem_univ q) h
  conv_lhs => rw [hw]
  rw [map_sum]
  exact Finset.sum_congr rfl fun p _ => by rw [map_smul, smul_eq_mul, linB_single]

theorem linB_pos (hc : c.Valid) (v : S → ℝ) (hv : v ≠ 0) : 0 < linB c S v v := by
  have hA : ∀ q ∈ touched S, 0 ≤ c.sig q.1 q.2 * (linEnergy c (extField S v) (extField S v) q.1 q.2) :=
    fun q _ => mul_nonneg (hc.sig_pos _ _).le (lin_energy_nonneg c _ _ _)
  have hN : ∀ p ∈ S, c.alp p.1 p.2 * extField S v p.1 p.2 * extField S v p.1 p.2 ≤ 0 := by
    intro p _
    rw [mul_assoc]; exact mul_nonpos_of_nonpos_of_nonneg (hc.alp_nonpos _ _) (mul_self_nonneg _)
  have h1 := Finset.sum_nonneg hA
  have h2 := Finset.sum_nonpos hN
  rw [linB_apply]; unfold linForm
  by_contra hneg
  have hz : ∑ q ∈ touched S, c.sig q.1 q.2 * (linEnergy c (extField S v) (extField S v) q.1 q.2) = 0 := by
    push Not at hneg
    linarith
  have hz' := (Finset.sum_eq_zero_iff_of_nonneg hA).1 hz
  apply hv
  funext p
  have hall : ∀ i j, cellGradX 1 (extField S v) i j = 0 ∧ cellGradY 1 (extField S v) i j = 0 := by
    intro i j
    by_cases hq : (i, j) ∈ touched S
    · have he : ∀ i j, (i, j) ∈ touched S → linEnergy c (extField S v) (extField S v) i j = 0 := fun i j h =>
        (mul_eq_zero.1 (hz' (i, j) h)).resolve_left (hc.sig_pos _ _).ne'
      have e := lin_energy_flat hc (he i j hq)
      simp only [cellGradX, cellGradY, e.1, e.2.1, e.2.2]
      constructor <;> ring
    · have hz : ∀ a b : ℤ, (a = i ∨ a = i + 1) → (b = j ∨ b = j + 1) → extField S v a b = 0 := by
        intro a b ha hb
        refine extField_not v fun hab => hq ?_
        unfold touched
        rw [Finset.mem_biUnion]
        refine ⟨(a, b), hab, ?_⟩
        simp only [cellsAt, Finset.mem_insert, Finset.mem_singleton, Prod.mk.injEq]
        omega
      simp only [cellGradX, cellGradY]
      rw [hz i j (Or.inl rfl) (Or.inl rfl), hz (i + 1) j (Or.inr rfl) (Or.inl rfl), hz i (j + 1) (Or.inl rfl) (Or.inr rfl), hz (i + 1) (j + 1) (Or.inr rfl) (Or.inr rfl)]
      constructor <;> ring
  have := zero_of_grad one_ne_zero one_ne_zero (fun i j h => extField_not v h) hall p.1.1 p.1.2
  rw [extField_mem] at this
  exact this

end Form

end Fub
