import Verif.Lemmas.NodalRelaxLin
import Verif.Spec.NodalRelaxLin
import Verif.Props.NodalRelax
import Mathlib.Tactic.NormNum
import Mathlib.Tactic.FieldSimp

/-!
C197: repeated smoothing of a patch with the operator for linear velocities converges to the solution of the pressure equation.
-/

namespace Fub

theorem linGsNode_other {c : LinCoef ℤ ℤ ℝ} {msk : ℤ → ℤ → Bool} {rhs sol : ℤ → ℤ → ℝ} {a b : ℤ} {p : ℤ × ℤ} (h : (a, b) ≠ p) : linGsNode c msk rhs sol p a b = sol a b := by
  unfold linGsNode
  rw [if_neg]
  rintro ⟨rfl, rfl⟩; exact h rfl

section Solution
variable {c : LinCoef ℤ ℤ ℝ}

theorem linStencil_add (c : LinCoef ℤ ℤ ℝ) (x y : ℤ → ℤ → ℝ) (i j : ℤ) :
    linStencil c (fun i j => x i j + y i j) i j = linStencil c x i j + linStencil c y i j := by
  simp only [linStencil]; ring

theorem linStencil_sub (c : LinCoef ℤ ℤ ℝ) (x y : ℤ → ℤ → ℝ) (i j : ℤ) :
    linStencil c (fun i j => x i j - y i j) i j = linStencil c x i j - linStencil c y i j := by
  simp only [linStencil]; ring

theorem linForm_zero {S : Finset (ℤ × ℤ)} (hc : c.Valid) {v : S → ℝ}
    (h : ∀ p : S, linStencil c (extField S v) p.1.1 p.1.2 = 0) : v = 0 := by
  by_contra hv
  have := linB_pos hc v hv
  rw [linB_sum] at this
  simp [h] at this

theorem lin_solution_exists (hc : c.Valid) (msk : ℤ → ℤ → Bool) (rhs : ℤ → ℤ → ℝ)
    (nodes : List (ℤ × ℤ)) (given : ℤ → ℤ → ℝ) : ∃ x, LinPatchSolution c msk rhs (fun i j => (i, j) ∈ nodes) given x := by
  classical
  set S := freeNodes msk nodes with hS
  set b : ℤ → ℤ → ℝ := fun i j => if (i, j) ∈ nodes then 0 else given i j with hb
  let T : (S → ℝ) →ₗ[ℝ] (S → ℝ) := LinearMap.pi fun p => (linB c S).flip (Pi.single p 1)
  have hT : ∀ v p, T v p = -linStencil c (extField S v) p.1.1 p.1.2 := fun v p => linB_single v p
  have hinj : Function.Injective T := by
    rw [injective_iff_map_eq_zero]
    intro v hv
    refine linForm_zero hc fun p => ?_
    have := congrFun hv p
    rw [hT] at this
    simpa using this
  obtain ⟨v, hv⟩ := (LinearMap.injective_iff_surjective.1 hinj) (fun p => -(rhs p.1.1 p.1.2 - linStencil c b p.1.1 p.1.2))
  refine ⟨fun i j => b i j + extField S v i j, fun i j hp => ⟨fun hm => ?_, fun hm => ?_⟩, fun i j hp => ?_⟩
  · have : (i, j) ∉ S := fun h => by have := (mem_freeNodes.1 h).2; simp [hm] at this
    simp only [hb, if_pos hp, extField_not v this, add_zero]
  · have hpS : (i, j) ∈ S := mem_freeNodes.2 ⟨hp, hm⟩
    have := congrFun hv ⟨(i, j), hpS⟩
    rw [hT] at this
    rw [linApply_unmasked hm]
    rw [linStencil_add]
    simp only at this
    linarith
  · have : (i, j) ∉ S := fun h => hp (mem_freeNodes.1 h).1
    simp only [hb, if_neg hp, extField_not v this, add_zero]

theorem lin_solution_unique (hc : c.Valid) {msk : ℤ → ℤ → Bool} {rhs : ℤ → ℤ → ℝ}
    {nodes : List (ℤ × ℤ)} {given x y : ℤ → ℤ → ℝ} (h : LinPatchSolution c msk rhs (fun i j => (i, j) ∈ nodes) given x)
    (h' : LinPatchSolution c msk rhs (fun i j => (i, j) ∈ nodes) given y) : x = y := by
  set S := freeNodes msk nodes with hS
  have hd : ∀ i j, (i, j) ∉ S → x i j - y i j = 0 := by
    intro i j hij
    by_cases hp : (i, j) ∈ nodes
    · have hm : msk i j = true := by
        cases hm : msk i j
        · exact absurd (mem_freeNodes.2 ⟨hp, hm⟩) hij
        · rfl
      rw [(h.1 i j hp).1 hm, (h'.1 i j hp).1 hm, sub_zero]
    · rw [h.2 i j hp, h'.2 i j hp, sub_self]
  have e := extField_restrict (S := S) (x := fun i j => x i j - y i j) hd
  have hz := linForm_zero (S := S) (v := fun p : S => x p.1.1 p.1.2 - y p.1.1 p.1.2) hc fun p => by
    rw [e, linStencil_sub]
    obtain ⟨hp, hm⟩ := mem_freeNodes.1 p.2
    have a := (h.1 _ _ hp).2 hm
    have b := (h'.1 _ _ hp).2 hm
    rw [linApply_unmasked hm] at a b
    rw [a, b, sub_self]
  funext i j
  have := congrFun (congrFun e i) j
  rw [hz] at this
  have h0' : extField S (0 : S → ℝ) i j = 0 := by unfold extField; split <;> simp
  rw [h0'] at this
  exact (sub_eq_zero.1 this.symm)

end Solution

section GaussSeidel
variable {c : LinCoef ℤ ℤ ℝ} {S : Finset (ℤ × ℤ)}

/-- The error after the update of a node. -/
noncomputable def linStepL (c : LinCoef ℤ ℤ ℝ) (S : Finset (ℤ × ℤ)) (p : S) : (S → ℝ) →ₗ[ℝ] (S → ℝ) :=
  LinearMap.id - ((linB c S).flip (Pi.single p 1)).smulRight ((-linDiag c p.1.1 p.1.2)⁻¹ • (Pi.single p (1 : ℝ) : S → ℝ))

theorem linStepL_apply (v : S → ℝ) (p : S) : linStepL c S p v = v - (linB c S v (Pi.single p 1) * (-linDiag c p.1.1 p.1.2)⁻¹) • (Pi.single p (1 : ℝ) : S → ℝ) := by
  simp [linStepL, smul_smul]

theorem linB_diag (p : S) :
    linB c S (Pi.single p 1) (Pi.single p 1) = -linDiag c p.1.1 p.1.2 := by
  rw [linB_single, extField_single, linStencil_delta]

/-- An update lowers the energy of the error by the squared residual over the diagonal. -/
theorem linStepL_energy (v : S → ℝ) (p : S) (hd : linDiag c p.1.1 p.1.2 < 0) :
    linB c S (linStepL c S p v) (linStepL c S p v) = linB c S v v - linB c S v (Pi.single p 1) ^ 2 / -linDiag c p.1.1 p.1.2 := by
  rw [linStepL_apply]
  have hs := linB_symm c S (Pi.single p 1) v
  have hdd := linB_diag (c := c) p
  simp only [map_sub, map_smul, LinearMap.sub_apply, LinearMap.smul_apply, smul_eq_mul, hs, hdd]
  generalize linB c S v (Pi.single p 1) = s
  have hne : -linDiag c p.1.1 p.1.2 ≠ 0 := by linarith
  generalize -linDiag c p.1.1 p.1.2 = d at hne
  field_simp
  ring

/-- The error after a sweep. -/
noncomputable def linSweepL (c : LinCoef ℤ ℤ ℝ) (S : Finset (ℤ × ℤ)) : List (ℤ × ℤ) → (S → ℝ) →ₗ[ℝ] (S → ℝ)
  | [] => LinearMap.id
  | p :: ps => if h : p ∈ S then (linSweepL c S ps).comp (linStepL c S ⟨p, h⟩) else linSweepL c S ps

theorem linSweepL_le (hd : ∀ i j, linDiag c i j < 0) (nodes : List (ℤ × ℤ)) (v : S → ℝ) :
    linB c S (linSweepL c S nodes v) (linSweepL c S nodes v) ≤ linB c S v v := by
  induction nodes generalizing v with
  | nil => exact le_rfl
  | cons p ps ih =>
    unfold linSweepL
    split
    · rename_i h
      refine (ih (linStepL c S ⟨p, h⟩ v)).trans ?_
      rw [linStepL_energy _ _ (hd _ _)]
      have : 0 ≤ linB c S v (Pi.single ⟨p, h⟩ 1) ^ 2 / -linDiag c p.1 p.2 := div_nonneg (sq_nonneg _) (by have := hd p.1 p.2; linarith)
      linarith
    · exact ih v

theorem linSweepL_eq (hd : ∀ i j, linDiag c i j < 0) (nodes : List (ℤ × ℤ)) (v : S → ℝ)
    (h : linB c S v v ≤ linB c S (linSweepL c S nodes v) (linSweepL c S nodes v)) : ∀ p : S, p.1 ∈ nodes → linB c S v (Pi.single p 1) = 0 := by
  induction nodes generalizing v with
  | nil => intro p hp; exact absurd hp (List.not_mem_nil)
  | cons p ps ih =>
    intro q hq
    unfold linSweepL at h
    by_cases hp : p ∈ S
    · rw [dif_pos hp] at h
      have hle := linSweepL_le hd ps (linStepL c S ⟨p, hp⟩ v)
      have he := linStepL_energy v ⟨p, hp⟩ (hd _ _)
      have hpos : 0 < -linDiag c p.1 p.2 := by have := hd p.1 p.2; linarith
      have hnn : 0 ≤ linB c S v (Pi.single ⟨p, hp⟩ 1) ^ 2 / -linDiag c p.1 p.2 := div_nonneg (sq_nonneg _) hpos.le
      have hz : linB c S v (Pi.single ⟨p, hp⟩ 1) ^ 2 / -linDiag c p.1 p.2 = 0 := by
        simp only [LinearMap.comp_apply] at h
        linarith
      have hz' : linB c S v (Pi.single ⟨p, hp⟩ 1) = 0 := by
        rcases div_eq_zero_iff.1 hz with a | a
        · exact pow_eq_zero_iff two_ne_zero |>.1 a
        · exact absurd a hpos.ne'
      have hid : linStepL c S ⟨p, hp⟩ v = v := by rw [linStepL_apply, hz']; simp
      rcases List.mem_cons.1 hq with e | e
      · have : q = ⟨p, hp⟩ := Subtype.ext e
        rw [this]; exact hz'
      · simp only [LinearMap.comp_apply, hid] at h
        exact ih v h q e
    · rw [dif_neg hp] at h
      rcases List.mem_cons.1 hq with e | e
      · exact absurd (e ▸ q.2) hp
      · exact ih v h q e

theorem linGsNode_error (hd : ∀ i j, linDiag c i j < 0) {msk : ℤ → ℤ → Bool} {rhs xs : ℤ → ℤ → ℝ} {p : ℤ × ℤ}
    (hs : (msk p.1 p.2 = true → xs p.1 p.2 = 0) ∧ (msk p.1 p.2 = false → linApply c msk xs p.1 p.2 = rhs p.1 p.2)) (hS : p ∈ S ↔ msk p.1 p.2 = false) (v : S → ℝ) :
    linGsNode c msk rhs (fun i j => xs i j + extField S v i j) p
      = fun i j => xs i j + extField S (if h : p ∈ S then linStepL c S ⟨p, h⟩ v else v) i j := by
  funext a b
  unfold linGsNode
  cases hm : msk p.1 p.2
  · have hp : p ∈ S := hS.2 hm
    rw [dif_pos hp, linStepL_apply]
    have hext : extField S (v - (linB c S v (Pi.single ⟨p, hp⟩ 1) * (-linDiag c p.1 p.2)⁻¹) • (Pi.single ⟨p, hp⟩ (1 : ℝ) : S → ℝ)) a b
        = extField S v a b - (linB c S v (Pi.single ⟨p, hp⟩ 1) * (-linDiag c p.1 p.2)⁻¹) * nodeDelta p a b := by
      rw [← extField_single ⟨p, hp⟩, sub_eq_add_neg, ← neg_smul, extField_add, extField_smul]; ring
    rw [hext, linB_single]
    have hr := hs.2 hm
    rw [linApply_unmasked hm] at hr
    have hne : linDiag c p.1 p.2 ≠ 0 := (hd _ _).ne
    by_cases hab : a = p.1 ∧ b = p.2
    · rw [if_pos hab]
      unfold nodeDelta
      rw [if_pos hab]
      simp only [hm, Bool.false_eq_true, if_false]
      rw [linGsAx_eq, linApply_unmasked rfl, linStencil_add, hr, hab.1, hab.2]
      field_simp
      ring
    · rw [if_neg hab]
      unfold nodeDelta
      rw [if_neg hab]; ring
  · have hp : p ∉ S := fun h => by rw [hS.1 h] at hm; exact Bool.false_ne_true hm
    rw [dif_neg hp]
    split
    · rename_i hab
      rw [if_pos rfl, hab.1, hab.2, hs.1 hm, extField_not v hp, add_zero]
    · rfl

theorem linGsSweep_error (hd : ∀ i j, linDiag c i j < 0) {msk : ℤ → ℤ → Bool} {rhs xs : ℤ → ℤ → ℝ} (nodes : List (ℤ × ℤ))
    (hs : ∀ p ∈ nodes, (msk p.1 p.2 = true → xs p.1 p.2 = 0) ∧ (msk p.1 p.2 = false → linApply c msk xs p.1 p.2 = rhs p.1 p.2))
    (hS : ∀ p ∈ nodes, (p ∈ S ↔ msk p.1 p.2 = false)) (v : S → ℝ) :
    linGsSweep c msk rhs nodes (fun i j => xs i j + extField S v i j) = fun i j => xs i j + extField S (linSweepL c S nodes v) i j := by
  induction nodes generalizing v with
  | nil => rfl
  | cons p ps ih =>
    show linGsSweep c msk rhs ps (linGsNode c msk rhs _ p) = _
    rw [linGsNode_error hd (hs p List.mem_cons_self) (hS p List.mem_cons_self),
      ih (fun q hq => hs q (List.mem_cons_of_mem _ hq)) (fun q hq => hS q (List.mem_cons_of_mem _ hq))]
    have e : linSweepL c S (p :: ps) = if h : p ∈ S then (linSweepL c S ps).comp (linStepL c S ⟨p, h⟩) else linSweepL c S ps := rfl
    rw [e]
    by_cases hp : p ∈ S
    · rw [dif_pos hp, dif_pos hp]; rfl
    · rw [dif_neg hp, dif_neg hp]

theorem linGsSweep_masked {msk : ℤ → ℤ → Bool} {rhs : ℤ → ℤ → ℝ} {i j : ℤ} (hm : msk i j = true) (nodes : List (ℤ × ℤ)) (x : ℤ → ℤ → ℝ)
    (h : x i j = 0 ∨ (i, j) ∈ nodes) : linGsSweep c msk rhs nodes x i j = 0 := by
  induction nodes generalizing x with
  | nil => exact h.resolve_right (List.not_mem_nil)
  | cons p ps ih =>
    show linGsSweep c msk rhs ps (linGsNode c msk rhs x p) i j = 0
    apply ih
    by_cases hp : (i, j) = p
    · left
      subst hp
      simp [linGsNode, hm]
    · rw [linGsNode_other hp]
      rcases h with h | h
      · exact Or.inl h
      · exact Or.inr ((List.mem_cons.1 h).resolve_left hp)

/-- Sweeps over any list of nodes, in any order, converge to the solution at these nodes. -/
theorem lin_gs_list_converges (hc : c.Valid) (msk : ℤ → ℤ → Bool) (rhs : ℤ → ℤ → ℝ)
    (nodes : List (ℤ × ℤ)) (x0 xs : ℤ → ℤ → ℝ) (hsol : LinPatchSolution c msk rhs (fun i j => (i, j) ∈ nodes) x0 xs) :
    ConvergesFast (fun k => (linGsSweep c msk rhs nodes)^[k + 1] x0) xs := by
  have hd : ∀ i j, linDiag c i j < 0 := fun i j => linDiag_neg hc i j
  set S := freeNodes msk nodes with hSdef
  have hS : ∀ p ∈ nodes, (p ∈ S ↔ msk p.1 p.2 = false) := fun p hp => ⟨fun h => (mem_freeNodes.1 h).2, fun h => mem_freeNodes.2 ⟨hp, h⟩⟩
  have hs : ∀ p ∈ nodes, (msk p.1 p.2 = true → xs p.1 p.2 = 0) ∧ (msk p.1 p.2 = false → linApply c msk xs p.1 p.2 = rhs p.1 p.2) := fun p hp => hsol.1 p.1 p.2 hp
  have hdec : ∀ v, v ≠ 0 → linB c S (linSweepL c S nodes v) (linSweepL c S nodes v) < linB c S v v := by
    intro v hv
    by_contra hcon
    push Not at hcon
    have := linSweepL_eq hd nodes v hcon
    refine hv (linForm_zero hc fun p => ?_)
    have e := this p (mem_freeNodes.1 p.2).1
    rw [linB_single] at e
    linarith
  obtain ⟨q, hq0, hq1, hq⟩ := energy_geometric (linB c S) (linB_pos hc) (linSweepL c S nodes) hdec
  set x1 := linGsSweep c msk rhs nodes x0 with hx1
  have hoff : ∀ i j, (i, j) ∉ S → x1 i j - xs i j = 0 := by
    intro i j hij
    by_cases hp : (i, j) ∈ nodes
    · have hm : msk i j = true := by
        cases hm : msk i j
        · exact absurd ((hS _ hp).2 hm) hij
        · rfl
      rw [hx1, linGsSweep_masked hm nodes x0 (Or.inr hp), (hsol.1 i j hp).1 hm, sub_zero]
    · rw [hx1, linGsSweep_other hp, hsol.2 i j hp, sub_self]
  set v : S → ℝ := fun p => x1 p.1.1 p.1.2 - xs p.1.1 p.1.2 with hv
  have hext : x1 = fun i j => xs i j + extField S v i j := by
    have e := extField_restrict (S := S) (x := fun i j => x1 i j - xs i j) hoff
    funext i j
    have := congrFun (congrFun e i) j
    rw [hv, this]; ring
  have hiter : ∀ k, (linGsSweep c msk rhs nodes)^[k + 1] x0 = fun i j => xs i j + extField S ((linSweepL c S nodes)^[k] v) i j := by
    intro k
    induction k with
    | zero => exact hext
    | succ k ih => rw [Function.iterate_succ_apply', ih, linGsSweep_error hd nodes hs hS, Function.iterate_succ_apply']
  obtain ⟨C, hC⟩ := hq v
  refine ⟨max C 0, q, hq0, hq1, fun k i j => ?_⟩
  have hb : C * q ^ k ≤ max C 0 * q ^ k := mul_le_mul_of_nonneg_right (le_max_left _ _) (pow_nonneg hq0 _)
  simp only [hiter k, add_sub_cancel_left]
  by_cases hp : (i, j) ∈ S
  · rw [extField_mem ((linSweepL c S nodes)^[k] v) ⟨(i, j), hp⟩]
    exact (hC k _).trans hb
  · rw [extField_not _ hp, abs_zero]
    exact mul_nonneg (le_max_right _ _) (pow_nonneg hq0 _)

/-- **C197.** For positive coefficients the equation on a patch has exactly one solution for every mask, every right-hand side and every set of ghost values, and repeated smoothing (`Fsmooth` with its two sweeps in the order of the loop) converges to it from every field. -/
theorem lin_smooth_gs_converges (hc : c.Valid) (msk : ℤ → ℤ → Bool) (rhs : ℤ → ℤ → ℝ)
    (ilo ihi jlo jhi : ℤ) (x0 : ℤ → ℤ → ℝ) :
    ∃ xs, LinPatchSolution c msk rhs (InBox ilo ihi jlo jhi) x0 xs
      ∧ (∀ ys, LinPatchSolution c msk rhs (InBox ilo ihi jlo jhi) x0 ys → ys = xs)
      ∧ ConvergesFast (fun k => (linSmoothGS c msk rhs ilo ihi jlo jhi)^[k + 1] x0) xs := by
  have hbox : (fun i j => (i, j) ∈ boxNodes ilo ihi jlo jhi) = InBox ilo ihi jlo jhi := by
    funext i j; exact propext mem_boxNodes
  rw [← hbox]
  obtain ⟨xs, hxs⟩ := lin_solution_exists hc msk rhs (boxNodes ilo ihi jlo jhi) x0
  refine ⟨xs, hxs, fun ys hys => lin_solution_unique hc hys hxs, ?_⟩
  obtain ⟨C, q, hq0, hq1, hC⟩ := lin_gs_list_converges hc msk rhs _ x0 xs hxs
  have hC0 : 0 ≤ C := by have := (abs_nonneg _).trans (hC 0 0 0); simpa using this
  have hit : ∀ k, (linSmoothGS c msk rhs ilo ihi jlo jhi)^[k] x0 = (linGsSweep c msk rhs (boxNodes ilo ihi jlo jhi))^[2 * k] x0 := by
    intro k
    induction k with
    | zero => rfl
    | succ k ih =>
      rw [Function.iterate_succ_apply', ih, mul_add, mul_one, Function.iterate_succ_apply', Function.iterate_succ_apply']; rfl
  refine ⟨C, q, hq0, hq1, fun k i j => ?_⟩
  simp only [hit]
  have e : 2 * (k + 1) = (2 * k + 1) + 1 := by ring
  rw [e]
  refine (hC (2 * k + 1) i j).trans (mul_le_mul_of_nonneg_left ?_ hC0)
  exact pow_le_pow_of_le_one hq0 hq1.le (by omega)

end GaussSeidel

section Jacobi
variable {c : LinCoef ℤ ℤ ℝ} {S : Finset (ℤ × ℤ)}

/-- The energy is below three times the diagonal part of the energy for all cell sizes. -/
theorem linEnergy_lt_diag (hc : c.Valid)  (w : S → ℝ) (hw : w ≠ 0) :
    linB c S w w < 3 * ∑ p : S, -linDiag c p.1.1 p.1.2 * w p ^ 2 := by
  set x := extField S w with hxdef
  have hsum : ∑ p : S, -linDiag c p.1.1 p.1.2 * w p ^ 2 = ∑ p ∈ S, -linDiag c p.1 p.2 * x p.1 p.2 ^ 2 := by
    rw [← Finset.sum_coe_sort S]
    exact Finset.sum_congr rfl fun p _ => by rw [hxdef, extField_mem]
  have hQ : ∑ p ∈ S, -linDiag c p.1 p.2 * x p.1 p.2 ^ 2
      = ∑ q ∈ touched S, c.sig q.1 q.2 * (3 / 8 * (c.dxinv ^ 2 + c.dyinv ^ 2) * (x q.1 q.2 ^ 2 + x (q.1 + 1) q.2 ^ 2 + x q.1 (q.2 + 1) ^ 2 + x (q.1 + 1) (q.2 + 1) ^ 2))
        - ∑ p ∈ S, c.alp p.1 p.2 * x p.1 p.2 * x p.1 p.2 := by
    have t := fun (o1 o2 : ℤ) a b => touched_sum (S := S) o1 o2 a b (fun i j => c.sig i j * (3 / 8 * (c.dxinv ^ 2 + c.dyinv ^ 2))) w
    have t1 := t 0 0 (Or.inl rfl) (Or.inl rfl)
    have t2 := t 1 0 (Or.inr rfl) (Or.inl rfl)
    have t3 := t 0 1 (Or.inl rfl) (Or.inr rfl)
    have t4 := t 1 1 (Or.inr rfl) (Or.inr rfl)
    simp only [add_zero, sub_zero] at t1 t2 t3 t4
    have e1 : ∀ q : ℤ × ℤ, c.sig q.1 q.2 * (3 / 8 * (c.dxinv ^ 2 + c.dyinv ^ 2) * (x q.1 q.2 ^ 2 + x (q.1 + 1) q.2 ^ 2 + x q.1 (q.2 + 1) ^ 2 + x (q.1 + 1) (q.2 + 1) ^ 2))
        = c.sig q.1 q.2 * (3 / 8 * (c.dxinv ^ 2 + c.dyinv ^ 2)) * x q.1 q.2 ^ 2 + c.sig q.1 q.2 * (3 / 8 * (c.dxinv ^ 2 + c.dyinv ^ 2)) * x (q.1 + 1) q.2 ^ 2
          + c.sig q.1 q.2 * (3 / 8 * (c.dxinv ^ 2 + c.dyinv ^ 2)) * x q.1 (q.2 + 1) ^ 2 + c.sig q.1 q.2 * (3 / 8 * (c.dxinv ^ 2 + c.dyinv ^ 2)) * x (q.1 + 1) (q.2 + 1) ^ 2 := by
      intro q; ring
    simp only [e1, Finset.sum_add_distrib]
    rw [t1, t2, t3, t4, ← Finset.sum_add_distrib, ← Finset.sum_add_distrib, ← Finset.sum_add_distrib, ← Finset.sum_sub_distrib]
    refine Finset.sum_congr rfl fun p _ => ?_
    simp only [linDiag]
    ring
  rw [hsum, hQ, linB_apply, ← hxdef]
  unfold linForm
  have hN : ∑ p ∈ S, c.alp p.1 p.2 * x p.1 p.2 * x p.1 p.2 ≤ 0 := by
    refine Finset.sum_nonpos fun p _ => ?_
    rw [mul_assoc]; exact mul_nonpos_of_nonpos_of_nonneg (hc.alp_nonpos _ _) (mul_self_nonneg _)
  have hcell : ∀ q : ℤ × ℤ, linEnergy c x x q.1 q.2
      ≤ (c.dxinv ^ 2 + c.dyinv ^ 2) * (x q.1 q.2 ^ 2 + x (q.1 + 1) q.2 ^ 2 + x q.1 (q.2 + 1) ^ 2 + x (q.1 + 1) (q.2 + 1) ^ 2) := by
    intro q
    simp only [linEnergy, cellGradX, cellGradY, cellTwist]
    generalize x q.1 q.2 = a
    generalize x (q.1 + 1) q.2 = b
    generalize x q.1 (q.2 + 1) = d
    generalize x (q.1 + 1) (q.2 + 1) = e
    have m1 := sq_nonneg c.dxinv
    have m2 := sq_nonneg c.dyinv
    have g1 : ((b + e) / 2 - (a + d) / 2) ^ 2 + (a - b - d + e) ^ 2 / 8 ≤ a ^ 2 + b ^ 2 + d ^ 2 + e ^ 2 := by
      nlinarith [sq_nonneg (a + e + b + d), sq_nonneg (a + b - d - e), sq_nonneg (a + e - b - d), sq_nonneg (a + d - b - e)]
    have g2 : ((d + e) / 2 - (a + b) / 2) ^ 2 + (a - b - d + e) ^ 2 / 8 ≤ a ^ 2 + b ^ 2 + d ^ 2 + e ^ 2 := by
      nlinarith [sq_nonneg (a + e + b + d), sq_nonneg (a + b - d - e), sq_nonneg (a + e - b - d), sq_nonneg (a + d - b - e)]
    have k1 := mul_le_mul_of_nonneg_left g1 m1
    have k2 := mul_le_mul_of_nonneg_left g2 m2
    nlinarith
  obtain ⟨p, hp⟩ : ∃ p, w p ≠ 0 := by
    by_contra hcon; push Not at hcon; exact hw (funext hcon)
  have hlt : ∑ q ∈ touched S, c.sig q.1 q.2 * (linEnergy c x x q.1 q.2)
      < 3 * ∑ q ∈ touched S, c.sig q.1 q.2 * (3 / 8 * (c.dxinv ^ 2 + c.dyinv ^ 2) * (x q.1 q.2 ^ 2 + x (q.1 + 1) q.2 ^ 2 + x q.1 (q.2 + 1) ^ 2 + x (q.1 + 1) (q.2 + 1) ^ 2)) := by
    have hmax : c.dxinv ^ 2 + c.dyinv ^ 2 < 3 * (3 / 8 * (c.dxinv ^ 2 + c.dyinv ^ 2)) := by
      have := sq_pos_of_ne_zero hc.dx; have := sq_pos_of_ne_zero hc.dy; linarith
    rw [Finset.mul_sum]
    have hle : ∀ q : ℤ × ℤ, 0 ≤ x q.1 q.2 ^ 2 + x (q.1 + 1) q.2 ^ 2 + x q.1 (q.2 + 1) ^ 2 + x (q.1 + 1) (q.2 + 1) ^ 2 := fun q => by positivity
    refine Finset.sum_lt_sum (fun q _ => ?_) ⟨p.1, Finset.mem_biUnion.2 ⟨p.1, p.2, by simp [cellsAt]⟩, ?_⟩
    · have a := mul_le_mul_of_nonneg_left (hcell q) (hc.sig_pos q.1 q.2).le
      have b := mul_le_mul_of_nonneg_right hmax.le (hle q)
      have d := mul_le_mul_of_nonneg_left b (hc.sig_pos q.1 q.2).le
      linarith
    · have hpos : 0 < x p.1.1 p.1.2 ^ 2 + x (p.1.1 + 1) p.1.2 ^ 2 + x p.1.1 (p.1.2 + 1) ^ 2 + x (p.1.1 + 1) (p.1.2 + 1) ^ 2 := by
        have : 0 < x p.1.1 p.1.2 ^ 2 := by
          rw [hxdef, extField_mem]; positivity
        positivity
      have a := mul_le_mul_of_nonneg_left (hcell p.1) (hc.sig_pos p.1.1 p.1.2).le
      have b := mul_lt_mul_of_pos_right hmax hpos
      have d := mul_lt_mul_of_pos_left b (hc.sig_pos p.1.1 p.1.2)
      linarith
  linarith

/-- The error after a Jacobi sweep. -/
noncomputable def linJacobiL (c : LinCoef ℤ ℤ ℝ) (S : Finset (ℤ × ℤ)) : (S → ℝ) →ₗ[ℝ] (S → ℝ) :=
  LinearMap.pi fun p => LinearMap.proj p + (-(2 / 3) * (-linDiag c p.1.1 p.1.2)⁻¹) • (linB c S).flip (Pi.single p 1)

theorem linJacobiL_energy (hc : c.Valid)  (v : S → ℝ) (hv : v ≠ 0) :
    linB c S (linJacobiL c S v) (linJacobiL c S v) < linB c S v v := by
  have hd : ∀ i j, 0 < -linDiag c i j := fun i j => by have := linDiag_neg hc i j; linarith
  set w : S → ℝ := fun p => -(2 / 3) * (-linDiag c p.1.1 p.1.2)⁻¹ * linB c S v (Pi.single p 1) with hwdef
  have hJ : linJacobiL c S v = v + w := by
    funext p
    simp [linJacobiL, hwdef]
  have hw : w ≠ 0 := by
    intro hz
    refine hv (linForm_zero hc fun p => ?_)
    have := congrFun hz p
    simp only [hwdef, Pi.zero_apply] at this
    have hne := (hd p.1.1 p.1.2).ne'
    rcases mul_eq_zero.1 this with a | a
    · exact absurd a (mul_ne_zero (by norm_num) (inv_ne_zero hne))
    · rw [linB_single] at a; linarith
  have hlt := linEnergy_lt_diag hc w hw
  have hvw : linB c S v w = -(3 / 2) * ∑ p : S, -linDiag c p.1.1 p.1.2 * w p ^ 2 := by
    rw [linB_sum, Finset.mul_sum]
    refine Finset.sum_congr rfl fun p _ => ?_
    rw [← linB_single]
    simp only [hwdef]
    have hne := (hd p.1.1 p.1.2).ne'
    generalize -linDiag c p.1.1 p.1.2 = d at hne
    field_simp
  rw [hJ]
  simp only [map_add, LinearMap.add_apply, linB_symm c S w v]
  linarith

theorem linSmoothJacobi_error (hc : c.Valid) {msk : ℤ → ℤ → Bool} {rhs xs : ℤ → ℤ → ℝ} {ilo ihi jlo jhi : ℤ}
    (hs : ∀ i j, InBox ilo ihi jlo jhi i j → (msk i j = true → xs i j = 0) ∧ (msk i j = false → linApply c msk xs i j = rhs i j))
    (hS : ∀ i j, (i, j) ∈ S ↔ InBox ilo ihi jlo jhi i j ∧ msk i j = false) (v : S → ℝ) :
    linSmoothJacobi c msk rhs ilo ihi jlo jhi (fun i j => xs i j + extField S v i j) = fun i j => xs i j + extField S (linJacobiL c S v) i j := by
  funext i j
  unfold linSmoothJacobi
  by_cases hb : (ilo ≤ i ∧ i ≤ ihi) ∧ (jlo ≤ j ∧ j ≤ jhi)
  · rw [if_pos hb]
    unfold linJacobi
    cases hm : msk i j
    · have hp : (i, j) ∈ S := (hS i j).2 ⟨hb, hm⟩
      have hr := (hs i j hb).2 hm
      rw [linApply_unmasked hm] at hr ⊢
      simp only [Bool.false_eq_true, if_false]
      rw [lin_jacobi_diag, linStencil_add, hr, extField_mem (linJacobiL c S v) ⟨(i, j), hp⟩, extField_mem v ⟨(i, j), hp⟩]
      have hne : linDiag c i j ≠ 0 := (linDiag_neg hc i j).ne
      simp only [linJacobiL, LinearMap.pi_apply, LinearMap.add_apply, LinearMap.proj_apply, LinearMap.smul_apply, LinearMap.flip_apply, smul_eq_mul, linB_single]
      generalize linDiag c i j = d at hne
      generalize linStencil c (extField S v) i j = s
      field_simp
      ring
    · have hp : (i, j) ∉ S := fun h => by rw [((hS i j).1 h).2] at hm; exact Bool.false_ne_true hm
      simp only [if_true]
      rw [(hs i j hb).1 hm, extField_not _ hp, add_zero]
  · rw [if_neg hb]
    have hn : (i, j) ∉ S := fun h => hb ((hS i j).1 h).1
    simp only [extField_not _ hn]

/-- **C197.** Repeated Jacobi smoothing converges to the solution as well, for all cell sizes. -/
theorem lin_smooth_jacobi_converges (hc : c.Valid)
    (msk : ℤ → ℤ → Bool) (rhs : ℤ → ℤ → ℝ) (ilo ihi jlo jhi : ℤ) (x0 : ℤ → ℤ → ℝ) :
    ∃ xs, LinPatchSolution c msk rhs (InBox ilo ihi jlo jhi) x0 xs ∧ ConvergesFast (fun k => (linSmoothJacobi c msk rhs ilo ihi jlo jhi)^[k + 1] x0) xs := by
  obtain ⟨xs, hxs⟩ := lin_solution_exists hc msk rhs (boxNodes ilo ihi jlo jhi) x0
  have hbox : (fun i j => (i, j) ∈ boxNodes ilo ihi jlo jhi) = InBox ilo ihi jlo jhi := by
    funext i j; exact propext mem_boxNodes
  rw [hbox] at hxs
  refine ⟨xs, hxs, ?_⟩
  set S := freeNodes msk (boxNodes ilo ihi jlo jhi) with hSdef
  have hS : ∀ i j, (i, j) ∈ S ↔ InBox ilo ihi jlo jhi i j ∧ msk i j = false := by
    intro i j
    rw [hSdef, mem_freeNodes, mem_boxNodes]; rfl
  obtain ⟨q, hq0, hq1, hq⟩ := energy_geometric (linB c S) (linB_pos hc) (linJacobiL c S) (linJacobiL_energy hc)
  set x1 := linSmoothJacobi c msk rhs ilo ihi jlo jhi x0 with hx1
  have hoff : ∀ i j, (i, j) ∉ S → x1 i j - xs i j = 0 := by
    intro i j hij
    by_cases hp : InBox ilo ihi jlo jhi i j
    · have hm : msk i j = true := by
        cases hm : msk i j
        · exact absurd ((hS i j).2 ⟨hp, hm⟩) hij
        · rfl
      rw [(hxs.1 i j hp).1 hm, hx1]
      unfold linSmoothJacobi
      have hp' : (ilo ≤ i ∧ i ≤ ihi) ∧ (jlo ≤ j ∧ j ≤ jhi) := hp
      rw [if_pos hp']
      unfold linJacobi
      rw [if_pos hm, sub_zero]
    · rw [hxs.2 i j hp, hx1]
      unfold linSmoothJacobi
      have hp' : ¬ ((ilo ≤ i ∧ i ≤ ihi) ∧ (jlo ≤ j ∧ j ≤ jhi)) := hp
      rw [if_neg hp', sub_self]
  set v : S → ℝ := fun p => x1 p.1.1 p.1.2 - xs p.1.1 p.1.2 with hv
  have hext : x1 = fun i j => xs i j + extField S v i j := by
    have e := extField_restrict (S := S) (x := fun i j => x1 i j - xs i j) hoff
    funext i j
    have := congrFun (congrFun e i) j
    rw [hv, this]; ring
  have hiter : ∀ k, (linSmoothJacobi c msk rhs ilo ihi jlo jhi)^[k + 1] x0 = fun i j => xs i j + extField S ((linJacobiL c S)^[k] v) i j := by
    intro k
    induction k with
    | zero => exact hext
    | succ k ih => rw [Function.iterate_succ_apply', ih, linSmoothJacobi_error hc hxs.1 hS, Function.iterate_succ_apply']
  obtain ⟨C, hC⟩ := hq v
  refine ⟨max C 0, q, hq0, hq1, fun k i j => ?_⟩
  have hb : C * q ^ k ≤ max C 0 * q ^ k := mul_le_mul_of_nonneg_right (le_max_left _ _) (pow_nonneg hq0 _)
  simp only [hiter k, add_sub_cancel_left]
  by_cases hp : (i, j) ∈ S
  · rw [extField_mem ((linJacobiL c S)^[k] v) ⟨(i, j), hp⟩]
    exact (hC k _).trans hb
  · rw [extField_not _ hp, abs_zero]
    exact mul_nonneg (le_max_right _ _) (pow_nonneg hq0 _)

end Jacobi

/-- Coefficients that meet the hypotheses: a weight that differs in every other column, very thin cells (`1/2` by `1/100`) in which the Jacobi smoother of the other operator diverges. -/
noncomputable def linRelaxSample : LinCoef ℤ ℤ ℝ := ⟨fun i _ => if Even i then 1 else 4, fun _ _ => -1, 2, 100⟩

theorem linRelaxSample_valid : linRelaxSample.Valid :=
  ⟨fun i j => by simp only [linRelaxSample]; split <;> norm_num, fun i j => by simp only [linRelaxSample]; norm_num,
    by simp only [linRelaxSample]; norm_num, by simp only [linRelaxSample]; norm_num⟩

example : ∃ xs, LinPatchSolution linRelaxSample (fun i _ => decide (i = 0)) (fun i j => i + j) (InBox 0 8 0 8) (fun _ _ => 1) xs
    ∧ (∀ ys, LinPatchSolution linRelaxSample (fun i _ => decide (i = 0)) (fun i j => i + j) (InBox 0 8 0 8) (fun _ _ => 1) ys → ys = xs)
    ∧ ConvergesFast (fun k => (linSmoothGS linRelaxSample (fun i _ => decide (i = 0)) (fun i j => i + j) 0 8 0 8)^[k + 1] (fun _ _ => 1)) xs :=
  lin_smooth_gs_converges linRelaxSample_valid _ _ _ _ _ _ _

example : ∃ xs, LinPatchSolution linRelaxSample (fun i _ => decide (i = 0)) (fun i j => i + j) (InBox 0 8 0 8) (fun _ _ => 1) xs
    ∧ ConvergesFast (fun k => (linSmoothJacobi linRelaxSample (fun i _ => decide (i = 0)) (fun i j => i + j) 0 8 0 8)^[k + 1] (fun _ _ => 1)) xs :=
  lin_smooth_jacobi_converges linRelaxSample_valid _ _ _ _ _ _ _

/-- The values after two sweeps from zero with right-hand side minus one (unit weights and cells). -/
example : linSmoothGS (⟨fun _ _ => 1, fun _ _ => 0, 1, 1⟩ : LinCoef ℤ ℤ ℚ) (fun _ _ => false) (fun _ _ => -1) 0 1 0 1 (fun _ _ => 0) 1 1 ≠ 0 := by
  simp only [linSmoothGS]; decide +kernel

end Fub
