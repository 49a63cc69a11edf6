import Verif.Model.NodalHelmLin
import Verif.Props.NodalSmooth

/-!
C144 and C145: the nodal pressure operator for piecewise linear velocities.
-/

namespace Fub
open Finset

section Periodic
variable {I J K : Type} [AddGroupWithOne I] [AddGroupWithOne J] [Fintype I] [Fintype J] [Field K] [LinearOrder K] [IsStrictOrderedRing K]

/-- Specification: the mixed second difference of the corners of a cell. -/
def cellTwist (x : I → J → K) (i : I) (j : J) : K := x i j - x (i + 1) j - x i (j + 1) + x (i + 1) (j + 1)

/-- Specification: the energy density of a pair of nodal functions in a cell, `∇x · ∇y` of the cell gradients plus a multiple of the product of the mixed differences. -/
def linEnergy (c : LinCoef I J K) (x y : I → J → K) (i : I) (j : J) : K :=
  cellGradX c.dxinv x i j * cellGradX c.dxinv y i j + cellGradY c.dyinv x i j * cellGradY c.dyinv y i j
    + (c.dxinv ^ 2 + c.dyinv ^ 2) / 8 * (cellTwist x i j * cellTwist y i j)

/-- **C144.** The quadratic form of the operator on a periodic grid; it is symmetric. -/
theorem lin_energy (c : LinCoef I J K) (x y : I → J → K) :
    gridSum (fun i j => y i j * linApply c (fun _ _ => false) x i j) = gridSum (fun i j => c.alp i j * (x i j * y i j) - c.sig i j * linEnergy c x y i j) := by
  let fx : K := 1 / 8 * c.dxinv * c.dxinv
  let fy : K := 1 / 8 * c.dyinv * c.dyinv
  have hc := gridSum_corner (K := K)
    (fun (i : I) (j : J) => y (i + 1) (j + 1) * (c.sig i j * (fx * (3 * (x i (j + 1) - x (i + 1) (j + 1)) + (x i j - x (i + 1) j)) + fy * (3 * (x (i + 1) j - x (i + 1) (j + 1)) + (x i j - x i (j + 1))))))
    (fun i j => y i (j + 1) * (c.sig i j * (fx * (3 * (x (i + 1) (j + 1) - x i (j + 1)) + (x (i + 1) j - x i j)) + fy * (3 * (x i j - x i (j + 1)) + (x (i + 1) j - x (i + 1) (j + 1))))))
    (fun i j => y (i + 1) j * (c.sig i j * (fx * (3 * (x i j - x (i + 1) j) + (x i (j + 1) - x (i + 1) (j + 1))) + fy * (3 * (x (i + 1) (j + 1) - x (i + 1) j) + (x i (j + 1) - x i j)))))
    (fun i j => y i j * (c.sig i j * (fx * (3 * (x (i + 1) j - x i j) + (x (i + 1) (j + 1) - x i (j + 1))) + fy * (3 * (x i (j + 1) - x i j) + (x (i + 1) (j + 1) - x (i + 1) j)))) + c.alp i j * (x i j * y i j))
  simp only [sub_add_cancel] at hc
  calc _ = _ := by
        congr 1; funext i j
        simp only [linApply, Bool.false_eq_true, if_false]
        show _ = y i j * (c.sig (i - 1) (j - 1) * (fx * (3 * (x (i - 1) j - x i j) + (x (i - 1) (j - 1) - x i (j - 1))) + fy * (3 * (x i (j - 1) - x i j) + (x (i - 1) (j - 1) - x (i - 1) j))))
          + y i j * (c.sig i (j - 1) * (fx * (3 * (x (i + 1) j - x i j) + (x (i + 1) (j - 1) - x i (j - 1))) + fy * (3 * (x i (j - 1) - x i j) + (x (i + 1) (j - 1) - x (i + 1) j))))
          + y i j * (c.sig (i - 1) j * (fx * (3 * (x (i - 1) j - x i j) + (x (i - 1) (j + 1) - x i (j + 1))) + fy * (3 * (x i (j + 1) - x i j) + (x (i - 1) (j + 1) - x (i - 1) j))))
          + (y i j * (c.sig i j * (fx * (3 * (x (i + 1) j - x i j) + (x (i + 1) (j + 1) - x i (j + 1))) + fy * (3 * (x i (j + 1) - x i j) + (x (i + 1) (j + 1) - x (i + 1) j)))) + c.alp i j * (x i j * y i j))
        simp only [fx, fy]
        ring
    _ = _ := hc
    _ = _ := by
        unfold gridSum
        refine Finset.sum_congr rfl fun i _ => Finset.sum_congr rfl fun j _ => ?_
        simp only [linEnergy, cellGradX, cellGradY, cellTwist, fx, fy]
        ring

/-- **C144.** The operator is symmetric. -/
theorem lin_symmetric (c : LinCoef I J K) (x y : I → J → K) :
    gridSum (fun i j => y i j * linApply c (fun _ _ => false) x i j) = gridSum (fun i j => x i j * linApply c (fun _ _ => false) y i j) := by
  rw [lin_energy, lin_energy]
  congr 1; funext i j
  unfold linEnergy
  ring

/-- Admissible coefficients: positive weight and a diagonal of one sign on a grid with positive cell sizes. -/
structure LinCoef.Valid (c : LinCoef I J K) : Prop where
  sig_pos : ∀ i j, 0 < c.sig i j
  alp_nonpos : ∀ i j, c.alp i j ≤ 0
  dx : c.dxinv ≠ 0
  dy : c.dyinv ≠ 0

omit [Fintype I] [Fintype J] in
theorem lin_energy_nonneg (c : LinCoef I J K) (x : I → J → K) (i : I) (j : J) : 0 ≤ linEnergy c x x i j := by
  unfold linEnergy
  have h1 := mul_self_nonneg (cellGradX c.dxinv x i j)
  have h2 := mul_self_nonneg (cellGradY c.dyinv x i j)
  have h3 := mul_nonneg (div_nonneg (add_nonneg (sq_nonneg _) (sq_nonneg _)) (by norm_num) : 0 ≤ (c.dxinv ^ 2 + c.dyinv ^ 2) / 8) (mul_self_nonneg (cellTwist x i j))
  linarith

omit [Fintype I] [Fintype J] in
theorem lin_energy_zero {c : LinCoef I J K} (hc : c.Valid) {x : I → J → K} {i : I} {j : J} (h : linEnergy c x x i j = 0) :
    x (i + 1) j = x i j ∧ x i (j + 1) = x i j := by
  unfold linEnergy at h
  have h1 := mul_self_nonneg (cellGradX c.dxinv x i j)
  have h2 := mul_self_nonneg (cellGradY c.dyinv x i j)
  have hp : 0 < (c.dxinv ^ 2 + c.dyinv ^ 2) / 8 := div_pos (add_pos_of_pos_of_nonneg (sq_pos_of_ne_zero hc.dx) (sq_nonneg _)) (by norm_num)
  have h3 := mul_nonneg hp.le (mul_self_nonneg (cellTwist x i j))
  have e1 : cellGradX c.dxinv x i j = 0 := mul_self_eq_zero.1 (by linarith)
  have e2 : cellGradY c.dyinv x i j = 0 := mul_self_eq_zero.1 (by linarith)
  have e3 : cellTwist x i j = 0 := by
    have : (c.dxinv ^ 2 + c.dyinv ^ 2) / 8 * (cellTwist x i j * cellTwist x i j) = 0 := by linarith
    exact mul_self_eq_zero.1 ((mul_eq_zero.1 this).resolve_left hp.ne')
  have g1 := (mul_eq_zero.1 e1).resolve_right hc.dx
  have g2 := (mul_eq_zero.1 e2).resolve_right hc.dy
  unfold cellTwist at e3
  constructor <;> linarith

/-- A field in the kernel of the operator is constant along the grid lines, and vanishes where the diagonal term does not. -/
theorem lin_kernel_terms {c : LinCoef I J K} (hc : c.Valid) {x : I → J → K} (h : ∀ i j, linApply c (fun _ _ => false) x i j = 0) (i : I) (j : J) :
    c.alp i j * x i j = 0 ∧ x (i + 1) j = x i j ∧ x i (j + 1) = x i j := by
  have e := lin_energy c x x
  simp only [h, mul_zero] at e
  have e0 : gridSum (fun i j => c.sig i j * linEnergy c x x i j + -c.alp i j * (x i j * x i j)) = 0 := by
    have : gridSum (fun (i : I) (j : J) => (0 : K)) = 0 := by simp [gridSum]
    rw [this] at e
    unfold gridSum at e ⊢
    rw [← neg_eq_zero, ← Finset.sum_neg_distrib, e]
    refine Finset.sum_congr rfl fun i _ => ?_
    rw [← Finset.sum_neg_distrib]
    refine Finset.sum_congr rfl fun j _ => ?_
    ring
  have hz : c.sig i j * linEnergy c x x i j + -c.alp i j * (x i j * x i j) = 0 := gridSum_eq_zero (fun i j =>
    add_nonneg (mul_nonneg (hc.sig_pos i j).le (lin_energy_nonneg c x i j)) (mul_nonneg (neg_nonneg.2 (hc.alp_nonpos i j)) (mul_self_nonneg _))) e0 i j
  have h1 := mul_nonneg (hc.sig_pos i j).le (lin_energy_nonneg c x i j)
  have h2 := mul_nonneg (neg_nonneg.2 (hc.alp_nonpos i j)) (mul_self_nonneg (x i j))
  have h3 := (mul_eq_zero.1 (show c.sig i j * linEnergy c x x i j = 0 by linarith)).resolve_left (hc.sig_pos i j).ne'
  refine ⟨?_, lin_energy_zero hc h3⟩
  rcases mul_eq_zero.1 (show -c.alp i j * (x i j * x i j) = 0 by linarith) with h | h
  · rw [neg_eq_zero.1 h, zero_mul]
  · rw [mul_self_eq_zero.1 h, mul_zero]

/-- The operator as a linear map. -/
def linLin (c : LinCoef I J K) : (I → J → K) →ₗ[K] (I → J → K) where
  toFun x := fun i j => linApply c (fun _ _ => false) x i j
  map_add' x y := by
    funext i j
    simp only [linApply, Pi.add_apply, Bool.false_eq_true, if_false]; ring
  map_smul' a x := by
    funext i j
    simp only [linApply, Pi.smul_apply, smul_eq_mul, RingHom.id_apply, Bool.false_eq_true, if_false]; ring

/-- **C144.** With a negative diagonal term the pressure equation has exactly one solution for every right-hand side. -/
theorem lin_solvable {c : LinCoef I J K} (hc : c.Valid) (ha : ∀ i j, c.alp i j < 0) (rhs : I → J → K) :
    ∃! x : I → J → K, ∀ i j, linApply c (fun _ _ => false) x i j = rhs i j := by
  have hinj : Function.Injective (linLin c) := by
    rw [injective_iff_map_eq_zero]
    intro x hx
    funext i j
    have := (lin_kernel_terms hc (fun i j => congrFun (congrFun hx i) j) i j).1
    exact (mul_eq_zero.1 this).resolve_left (ha i j).ne
  obtain ⟨x, hx⟩ := LinearMap.injective_iff_surjective.1 hinj rhs
  refine ⟨x, fun i j => congrFun (congrFun hx i) j, fun y hy => hinj ?_⟩
  rw [hx]; funext i j; exact hy i j

/-- **C144.** Without diagonal term the values of the operator sum up to zero. -/
theorem lin_sum_zero {c : LinCoef I J K} (ha : ∀ i j, c.alp i j = 0) (x : I → J → K) : gridSum (linApply c (fun _ _ => false) x) = 0 := by
  have := lin_energy c x (fun _ _ => 1)
  simp only [one_mul] at this
  rw [show gridSum (linApply c (fun _ _ => false) x) = gridSum (fun i j => linApply c (fun _ _ => false) x i j) from rfl, this]
  simp [gridSum, linEnergy, cellGradX, cellGradY, cellTwist, ha]

end Periodic

section Torus
variable {n m : ℕ} [NeZero n] [NeZero m] {K : Type} [Field K] [LinearOrder K] [IsStrictOrderedRing K]

omit [NeZero n] [NeZero m] [Field K] [LinearOrder K] [IsStrictOrderedRing K] in
theorem torus_const {x : ZMod n → ZMod m → K} (h : ∀ i j, x (i + 1) j = x i j ∧ x i (j + 1) = x i j) (i : ZMod n) (j : ZMod m) : x i j = x 0 0 := by
  have h1 : ∀ (k : ℤ) (j : ZMod m), x (k : ZMod n) j = x 0 j := by
    intro k j
    induction k using Int.induction_on with
    | zero => simp
    | succ k ih => rw [← ih]; push_cast; exact (h _ _).1
    | pred k ih =>
      rw [← ih]
      have := (h ((-(k : ℤ) - 1 : ℤ) : ZMod n) j).1
      push_cast at this ⊢
      rw [← this]; congr 1; ring
  have h2 : ∀ (k : ℤ), x 0 (k : ZMod m) = x 0 0 := by
    intro k
    induction k using Int.induction_on with
    | zero => simp
    | succ k ih => rw [← ih]; push_cast; exact (h _ _).2
    | pred k ih =>
      rw [← ih]
      have := (h 0 ((-(k : ℤ) - 1 : ℤ) : ZMod m)).2
      push_cast at this ⊢
      rw [← this]; congr 1; ring
  obtain ⟨a, rfl⟩ := ZMod.intCast_surjective i
  obtain ⟨b, rfl⟩ := ZMod.intCast_surjective j
  rw [h1, h2]

/-- **C144.** Without diagonal term the kernel of the operator consists exactly of the constants, on every periodic grid: there is no checkerboard mode. -/
theorem lin_kernel {c : LinCoef (ZMod n) (ZMod m) K} (hc : c.Valid) (ha : ∀ i j, c.alp i j = 0) (x : ZMod n → ZMod m → K) :
    (∀ i j, linApply c (fun _ _ => false) x i j = 0) ↔ ∃ a, ∀ i j, x i j = a := by
  constructor
  · intro h
    exact ⟨x 0 0, torus_const fun i j => (lin_kernel_terms hc h i j).2⟩
  · rintro ⟨a, h⟩ i j
    simp only [linApply, Bool.false_eq_true, if_false, h, ha]
    ring

/-- **C144.** Without diagonal term the equation is solvable exactly for the right-hand sides with sum zero, and two solutions differ by a constant. -/
theorem lin_solvable_incompressible {c : LinCoef (ZMod n) (ZMod m) K} (hc : c.Valid) (ha : ∀ i j, c.alp i j = 0) (rhs : ZMod n → ZMod m → K) :
    ((∃ x : ZMod n → ZMod m → K, ∀ i j, linApply c (fun _ _ => false) x i j = rhs i j) ↔ gridSum rhs = 0)
    ∧ ∀ x y : ZMod n → ZMod m → K, (∀ i j, linApply c (fun _ _ => false) x i j = rhs i j) → (∀ i j, linApply c (fun _ _ => false) y i j = rhs i j) →
      ∃ a, ∀ i j, x i j = y i j + a := by
  refine ⟨⟨?_, ?_⟩, ?_⟩
  · rintro ⟨x, hx⟩
    rw [← lin_sum_zero ha x]
    congr 1; funext i j; exact (hx i j).symm
  · intro h0
    let S : (ZMod n → ZMod m → K) →ₗ[K] K :=
      { toFun := gridSum
        map_add' := fun f g => gridSum_add f g
        map_smul' := fun a f => by simp [gridSum, Finset.mul_sum] }
    let W := LinearMap.ker S
    have hmem : ∀ x : W, (linLin c).domRestrict W x ∈ W := by
      intro x
      rw [LinearMap.mem_ker]
      exact lin_sum_zero ha x.1
    let f : W →ₗ[K] W := ((linLin c).domRestrict W).codRestrict W hmem
    have hinj : Function.Injective f := by
      rw [injective_iff_map_eq_zero]
      rintro ⟨x, hxS⟩ hx
      have hx' : linLin c x = 0 := congrArg Subtype.val hx
      obtain ⟨a, h⟩ := (lin_kernel hc ha x).1 fun i j => congrFun (congrFun hx' i) j
      have hs : gridSum x = 0 := LinearMap.mem_ker.1 hxS
      unfold gridSum at hs
      simp only [h, Finset.sum_const, Finset.card_univ, ZMod.card, nsmul_eq_mul] at hs
      have hn : (n : K) ≠ 0 := Nat.cast_ne_zero.2 (NeZero.ne n)
      have hm : (m : K) ≠ 0 := Nat.cast_ne_zero.2 (NeZero.ne m)
      have : a = 0 := ((mul_eq_zero.1 ((mul_eq_zero.1 hs).resolve_left hn)).resolve_left hm)
      refine Subtype.ext ?_
      funext i j
      show x i j = 0
      rw [h, this]
    obtain ⟨x, hx⟩ := LinearMap.injective_iff_surjective.1 hinj ⟨rhs, LinearMap.mem_ker.2 h0⟩
    exact ⟨x.1, fun i j => congrFun (congrFun (congrArg Subtype.val hx) i) j⟩
  · intro x y hx hy
    have h0 : ∀ i j, linApply c (fun _ _ => false) (x - y) i j = 0 := by
      intro i j
      have : linApply c (fun _ _ => false) (x - y) i j = linApply c (fun _ _ => false) x i j - linApply c (fun _ _ => false) y i j :=
        congrFun (congrFun ((linLin c).map_sub x y) i) j
      rw [this, hx, hy, sub_self]
    obtain ⟨a, h⟩ := (lin_kernel hc ha _).1 h0
    exact ⟨a, fun i j => by have := h i j; simp only [Pi.sub_apply] at this; linarith⟩

end Torus

section Algebra
variable {I J K : Type} [AddGroupWithOne I] [AddGroupWithOne J] [Field K] [CharZero K]

/-- **C145.** The operator is the divergence of the flux `σ grad x` of `mlndhelm_mknewu`, plus the diagonal term, plus a term with the mixed differences of the four cells. -/
theorem lin_apply_flux (c : LinCoef I J K) (msk : I → J → Bool) (x : I → J → K) (i : I) (j : J) :
    linApply c msk x i j = if msk i j then 0 else
      nodeDiv c.dxinv c.dyinv (fun i j => c.sig i j * cellGradX c.dxinv x i j) (fun i j => c.sig i j * cellGradY c.dyinv x i j) i j + c.alp i j * x i j
        - (c.dxinv ^ 2 + c.dyinv ^ 2) / 8 * (c.sig i j * cellTwist x i j - c.sig (i - 1) j * cellTwist x (i - 1) j - c.sig i (j - 1) * cellTwist x i (j - 1)
            + c.sig (i - 1) (j - 1) * cellTwist x (i - 1) (j - 1)) := by
  unfold linApply
  split
  · rfl
  · simp only [nodeDiv, cellGradX, cellGradY, cellTwist, sub_add_cancel]
    have h2 : (2 : K) ≠ 0 := two_ne_zero
    have h8 : (8 : K) ≠ 0 := by norm_num
    field_simp
    ring

/-- **C145.** What the correction of the velocity leaves: if the pressure solves the equation with the divergence of `(u, v)`, then the divergence of the corrected velocity is the term with the mixed differences. The full claim "it is zero" fails, see `lin_projection_wrong`; it holds where `σ` times the mixed difference is constant. -/
theorem lin_projection_partial (c : LinCoef I J K) (ha : ∀ i j, c.alp i j = 0) (u v x : I → J → K) (i : I) (j : J)
    (h : linApply c (fun _ _ => false) x i j = nodeDivu c.dxinv c.dyinv (fun _ _ => false) u v i j) :
    nodeDivu c.dxinv c.dyinv (fun _ _ => false) (mkNewU c.dxinv c.sig u x) (mkNewV c.dyinv c.sig v x) i j
      = -((c.dxinv ^ 2 + c.dyinv ^ 2) / 8 * (c.sig i j * cellTwist x i j - c.sig (i - 1) j * cellTwist x (i - 1) j - c.sig i (j - 1) * cellTwist x i (j - 1)
            + c.sig (i - 1) (j - 1) * cellTwist x (i - 1) (j - 1))) := by
  rw [lin_apply_flux, ha] at h
  simp only [Bool.false_eq_true, if_false, zero_mul, add_zero] at h
  have e : nodeDivu c.dxinv c.dyinv (fun _ _ => false) (mkNewU c.dxinv c.sig u x) (mkNewV c.dyinv c.sig v x) i j
      = nodeDivu c.dxinv c.dyinv (fun _ _ => false) u v i j
        - nodeDiv c.dxinv c.dyinv (fun i j => c.sig i j * cellGradX c.dxinv x i j) (fun i j => c.sig i j * cellGradY c.dyinv x i j) i j := by
    simp only [nodeDivu, mkNewU, mkNewV, nodeDiv, cellGradX, cellGradY, Bool.false_eq_true, if_false]
    ring
  rw [e, ← h]; ring

omit [CharZero K] in
/-- **C144.** The divisors of the smoothers and of the normalisation are the same. -/
theorem lin_jacobi_diag (c : LinCoef I J K) (i : I) (j : J) : linJacobiDiag c i j = linDiag c i j := by
  unfold linJacobiDiag linDiag; ring

omit [CharZero K] in
theorem linGsAx_eq (c : LinCoef I J K) (x : I → J → K) (i : I) (j : J) : linGsAx c x i j = linApply c (fun _ _ => false) x i j := by
  simp only [linGsAx, linDiag, linApply, Bool.false_eq_true, if_false]; ring

/-- **C144.** The Jacobi smoother does not change a field exactly if it solves the equation on the unmasked nodes and vanishes on the masked ones. -/
theorem lin_jacobi_fixed {c : LinCoef I J K} (hd : ∀ i j, linDiag c i j ≠ 0) (msk : I → J → Bool) (rhs sol : I → J → K) :
    linJacobi c msk rhs sol = sol ↔ ∀ i j, (msk i j = true → sol i j = 0) ∧ (msk i j = false → linApply c msk sol i j = rhs i j) := by
  have key : ∀ i j, linJacobi c msk rhs sol i j = sol i j ↔ (msk i j = true → sol i j = 0) ∧ (msk i j = false → linApply c msk sol i j = rhs i j) := by
    intro i j
    unfold linJacobi
    cases hm : msk i j
    · simp only [Bool.false_eq_true, if_false, false_imp_iff, true_and, true_imp_iff]
      rw [lin_jacobi_diag, add_eq_left, div_eq_zero_iff]
      constructor
      · rintro (h | h)
        · have := (mul_eq_zero.1 h).resolve_left (by norm_num)
          exact (sub_eq_zero.1 this).symm
        · exact absurd h (hd i j)
      · intro h; left; rw [h, sub_self, mul_zero]
    · simp only [if_true, Bool.true_eq_false, false_imp_iff, and_true, true_imp_iff]
      exact eq_comm
  constructor
  · intro h i j; exact (key i j).1 (by rw [h])
  · intro h; funext i j; exact (key i j).2 (h i j)

omit [CharZero K] in
/-- **C145.** With one coefficient for both directions and no diagonal term the operator of the coarse multigrid levels is the one of the finest level. -/
theorem lin_ha_partial (sig x : I → J → K) (dxinv dyinv : K) (msk : I → J → Bool) (i : I) (j : J) :
    linApplyHa sig sig dxinv dyinv msk x i j = linApply ⟨sig, fun _ _ => 0, dxinv, dyinv⟩ msk x i j := by
  unfold linApplyHa linApply
  split <;> ring

omit [CharZero K] in
/-- **C145.** (Disagreement.) With the two averaged coefficients of the coarse multigrid levels the rows do not sum up to zero, because one coefficient is read from the wrong array. -/
theorem lin_ha_const (sx sy : I → J → K) (dxinv dyinv a : K) (msk : I → J → Bool) (i : I) (j : J) (hm : msk i j = false) :
    linApplyHa sx sy dxinv dyinv msk (fun _ _ => a) i j = a * (1 / 8 * dyinv * dyinv) * (sy (i - 1) j + sy i j - sx (i - 1) j - sx i j) := by
  unfold linApplyHa
  simp only [hm, Bool.false_eq_true, if_false]; ring

/-- **C145.** (Disagreement.) The normalisation of the coarse multigrid levels divides by `8/3` of the divisor that the smoother of the same level uses. -/
theorem lin_ha_normalize_wrong (sx sy : I → J → K) (dxinv dyinv : K) (i : I) (j : J) :
    linNormDiagHa sx sy dxinv dyinv i j = 8 / 3 * linJacobiDiagHa sx sy dxinv dyinv i j := by
  unfold linNormDiagHa linJacobiDiagHa
  have h3 : (3 : K) ≠ 0 := by norm_num
  have h8 : (8 : K) ≠ 0 := by norm_num
  field_simp
  ring

end Algebra

section Plain
variable {K : Type} [Field K] [CharZero K]

/-- **C144.** Second order consistency: on quadratic polynomials and a constant coefficient the operator is exactly `σ` times the Laplacian plus the diagonal term. -/
theorem lin_consistent (s dx dy a b d e f g : K) (alp : ℤ → ℤ → K) (hx : dx ≠ 0) (hy : dy ≠ 0) (i j : ℤ) :
    let p : ℤ → ℤ → K := fun i j => a * (i * dx) ^ 2 + b * (j * dy) ^ 2 + d * (i * dx) * (j * dy) + e * (i * dx) + f * (j * dy) + g
    linApply ⟨fun _ _ => s, alp, 1 / dx, 1 / dy⟩ (fun _ _ => false) p i j = s * (2 * a + 2 * b) + alp i j * p i j := by
  intro p
  simp only [linApply, Bool.false_eq_true, if_false, p, Int.cast_sub, Int.cast_add, Int.cast_one]
  have h8 : (8 : K) ≠ 0 := by norm_num
  field_simp
  ring

omit [CharZero K] in
/-- **C144.** The divisor of the smoothers is the diagonal entry of the operator. -/
theorem lin_diag (c : LinCoef ℤ ℤ K) (i j : ℤ) : linApply c (fun _ _ => false) (fun a b => if a = i ∧ b = j then 1 else 0) i j = linDiag c i j := by
  have h1 : ¬ i - 1 = i := by omega
  have h2 : ¬ i + 1 = i := by omega
  have h3 : ¬ j - 1 = j := by omega
  have h4 : ¬ j + 1 = j := by omega
  simp only [linApply, linDiag, Bool.false_eq_true, if_false, h1, h2, h3, h4, false_and, and_false, and_self, if_true]
  ring

omit [CharZero K] in
/-- **C144 (normalization).** The normalization divides an equation by the diagonal entry of the operator, and leaves nodes with Dirichlet conditions alone: the normalized
equation of a node is the equation of the node. -/
theorem lin_normalize_system (c : LinCoef ℤ ℤ K) (msk : ℤ → ℤ → Bool) (x rhs : ℤ → ℤ → K) (i j : ℤ)
    (hd : linApply c (fun _ _ => false) (fun a b => if a = i ∧ b = j then 1 else 0) i j ≠ 0) :
    (msk i j = true → linNormalize c msk rhs i j = rhs i j) ∧
      (msk i j = false → linNormalize c msk rhs i j * linApply c (fun _ _ => false) (fun a b => if a = i ∧ b = j then 1 else 0) i j = rhs i j) ∧
      (linNormalize c msk (linApply c msk x) i j = linNormalize c msk rhs i j ↔ linApply c msk x i j = rhs i j) := by
  rw [lin_diag] at hd ⊢
  refine ⟨fun h => by simp [linNormalize, h], fun h => by simp [linNormalize, h, div_mul_cancel₀ _ hd], ?_⟩
  unfold linNormalize
  cases msk i j
  · simp [div_left_inj' hd]
  · simp

omit [CharZero K] in
/-- The same for the operator of the coarse multigrid levels and its smoother. -/
theorem lin_diag_ha (sx sy : ℤ → ℤ → K) (dxinv dyinv : K) (i j : ℤ) :
    linApplyHa sx sy dxinv dyinv (fun _ _ => false) (fun a b => if a = i ∧ b = j then 1 else 0) i j = linJacobiDiagHa sx sy dxinv dyinv i j := by
  have h1 : ¬ i - 1 = i := by omega
  have h2 : ¬ i + 1 = i := by omega
  have h3 : ¬ j - 1 = j := by omega
  have h4 : ¬ j + 1 = j := by omega
  simp only [linApplyHa, linJacobiDiagHa, Bool.false_eq_true, if_false, h1, h2, h3, h4, false_and, and_false, and_self, if_true]
  ring

omit [CharZero K] in
/-- **C144.** Updating an unmasked node in the Gauss-Seidel smoother makes the equation hold exactly at this node and changes no other value; a masked node becomes zero. -/
theorem lin_gs_node (c : LinCoef ℤ ℤ K) (msk : ℤ → ℤ → Bool) (i j : ℤ) (hd : linDiag c i j ≠ 0) (rhs sol : ℤ → ℤ → K) :
    (msk i j = false → linApply c msk (linGsNode c msk rhs sol (i, j)) i j = rhs i j)
    ∧ (msk i j = true → linGsNode c msk rhs sol (i, j) i j = 0)
    ∧ ∀ a b, (a ≠ i ∨ b ≠ j) → linGsNode c msk rhs sol (i, j) a b = sol a b := by
  refine ⟨fun hm => ?_, fun hm => ?_, fun a b h => ?_⟩
  · have e : linApply c msk (linGsNode c msk rhs sol (i, j)) i j = linGsAx c sol i j + (linGsNode c msk rhs sol (i, j) i j - sol i j) * linDiag c i j := by
      have e1 : linApply c msk (linGsNode c msk rhs sol (i, j)) i j = linGsAx c (linGsNode c msk rhs sol (i, j)) i j := by
        rw [linGsAx_eq]; simp only [linApply, hm]
      rw [e1]
      have h1 : ∀ a : ℤ, ¬ a - 1 = a := by intro a; omega
      have h2 : ∀ a : ℤ, ¬ a + 1 = a := by intro a; omega
      unfold linGsAx
      simp only [linGsNode, h1, h2, false_and, and_false, if_false, and_self, if_true, hm, Bool.false_eq_true]
      ring
    rw [e]
    simp only [linGsNode, hm, and_self, if_true, Bool.false_eq_true, if_false]
    field_simp
    ring
  · simp [linGsNode, hm]
  · simp only [linGsNode]
    rw [if_neg]
    rintro ⟨rfl, rfl⟩; simp at h

/-- The condition that a field solves the equation at a node. -/
def LinSolved (c : LinCoef ℤ ℤ K) (msk : ℤ → ℤ → Bool) (rhs sol : ℤ → ℤ → K) (p : ℤ × ℤ) : Prop :=
  (msk p.1 p.2 = true → sol p.1 p.2 = 0) ∧ (msk p.1 p.2 = false → linApply c msk sol p.1 p.2 = rhs p.1 p.2)

omit [CharZero K] in
theorem linGsNode_fixed {c : LinCoef ℤ ℤ K} {msk : ℤ → ℤ → Bool} {rhs sol : ℤ → ℤ → K} {p : ℤ × ℤ} (hd : linDiag c p.1 p.2 ≠ 0) :
    linGsNode c msk rhs sol p p.1 p.2 = sol p.1 p.2 ↔ LinSolved c msk rhs sol p := by
  unfold LinSolved
  simp only [linGsNode, and_self, if_true]
  cases hm : msk p.1 p.2
  · simp only [Bool.false_eq_true, if_false, false_imp_iff, true_and, true_imp_iff]
    have : linApply c msk sol p.1 p.2 = linApply c (fun _ _ => false) sol p.1 p.2 := by simp only [linApply, hm]
    rw [linGsAx_eq, this, add_eq_left, div_eq_zero_iff, or_iff_left hd, sub_eq_zero, eq_comm]
  · simp only [if_true, Bool.true_eq_false, false_imp_iff, and_true, true_imp_iff]
    exact eq_comm

omit [CharZero K] in
theorem linGsSweep_other {c : LinCoef ℤ ℤ K} {msk : ℤ → ℤ → Bool} {rhs : ℤ → ℤ → K} {nodes : List (ℤ × ℤ)} {a b : ℤ} (h : (a, b) ∉ nodes) (sol : ℤ → ℤ → K) :
    linGsSweep c msk rhs nodes sol a b = sol a b := by
  induction nodes generalizing sol with
  | nil => rfl
  | cons p ps ih =>
    rw [List.mem_cons, not_or] at h
    show linGsSweep c msk rhs ps (linGsNode c msk rhs sol p) a b = _
    rw [ih h.2]
    simp only [linGsNode]
    rw [if_neg]
    rintro ⟨rfl, rfl⟩; exact h.1 rfl

omit [CharZero K] in
/-- **C144.** A Gauss-Seidel sweep over a box changes nothing outside of the box, and it does not change a field exactly if the field solves the equation on all unmasked nodes of the box and vanishes on the masked ones. -/
theorem lin_gs_sweep {c : LinCoef ℤ ℤ K} (hd : ∀ i j, linDiag c i j ≠ 0) (msk : ℤ → ℤ → Bool) (rhs sol : ℤ → ℤ → K) (ilo ihi jlo jhi : ℤ) :
    (linGsSweep c msk rhs (boxNodes ilo ihi jlo jhi) sol = sol
      ↔ ∀ i j, ilo ≤ i → i ≤ ihi → jlo ≤ j → j ≤ jhi → (msk i j = true → sol i j = 0) ∧ (msk i j = false → linApply c msk sol i j = rhs i j))
    ∧ ∀ i j, ¬ (ilo ≤ i ∧ i ≤ ihi ∧ jlo ≤ j ∧ j ≤ jhi) → linGsSweep c msk rhs (boxNodes ilo ihi jlo jhi) sol i j = sol i j := by
  have key : ∀ nodes : List (ℤ × ℤ), nodes.Nodup → (linGsSweep c msk rhs nodes sol = sol ↔ ∀ p ∈ nodes, LinSolved c msk rhs sol p) := by
    intro nodes hn
    have hfix : ∀ p, LinSolved c msk rhs sol p → linGsNode c msk rhs sol p = sol := by
      intro p h
      funext a b
      by_cases hab : a = p.1 ∧ b = p.2
      · rw [hab.1, hab.2]; exact (linGsNode_fixed (hd _ _)).2 h
      · simp only [linGsNode]; rw [if_neg hab]
    induction nodes with
    | nil => simp [linGsSweep]
    | cons p ps ih =>
      rw [List.nodup_cons] at hn
      constructor
      · intro h
        have hp : linGsNode c msk rhs sol p p.1 p.2 = sol p.1 p.2 := by
          have : linGsSweep c msk rhs ps (linGsNode c msk rhs sol p) p.1 p.2 = sol p.1 p.2 := congrFun (congrFun h p.1) p.2
          rwa [linGsSweep_other hn.1] at this
        have hs := (linGsNode_fixed (hd _ _)).1 hp
        have hrest : linGsSweep c msk rhs ps sol = sol := by
          have : linGsSweep c msk rhs ps (linGsNode c msk rhs sol p) = sol := h
          rwa [hfix p hs] at this
        intro q hq
        rcases List.mem_cons.1 hq with rfl | hq
        · exact hs
        · exact (ih hn.2).1 hrest q hq
      · intro h
        show linGsSweep c msk rhs ps (linGsNode c msk rhs sol p) = sol
        rw [hfix p (h p (by simp))]
        exact (ih hn.2).2 fun q hq => h q (by simp [hq])
  constructor
  · rw [key _ (boxNodes_nodup _ _ _ _)]
    constructor
    · intro h i j h1 h2 h3 h4; exact h (i, j) (mem_boxNodes.2 ⟨⟨h1, h2⟩, h3, h4⟩)
    · intro h p hp
      obtain ⟨⟨h1, h2⟩, h3, h4⟩ := mem_boxNodes.1 hp
      exact h p.1 p.2 h1 h2 h3 h4
  · intro i j h
    exact linGsSweep_other (fun hm => h (by have := mem_boxNodes.1 hm; simpa [and_assoc] using this)) sol

/-- **C145.** The composite residual at a node between two levels uses, on affine pressures, the same value as both operators restricted to the coarse cells. The full claim "for all pressures" fails, see `res_cf_wrong`. -/
theorem res_cf_partial (sig : ℤ → ℤ → K) (dxinv dyinv a b d : K) (crse : ℤ → ℤ → Bool) (i j : ℤ) :
    let p : ℤ → ℤ → K := fun i j => a * i + b * j + d
    let s : ℤ → ℤ → K := fun i j => if crse i j then sig i j else 0
    resCfAx sig dxinv dyinv crse p i j = linApply ⟨s, fun _ _ => 0, dxinv, dyinv⟩ (fun _ _ => false) p i j
    ∧ resCfAx sig dxinv dyinv crse p i j = helmApply ⟨s, fun _ _ => 0, fun _ _ => 0, fun _ _ => 0, dxinv, dyinv⟩ (fun _ _ => false) p i j := by
  intro p s
  have h6 : (6 : K) ≠ 0 := by norm_num
  have h8 : (8 : K) ≠ 0 := by norm_num
  have h4 : (4 : K) ≠ 0 := by norm_num
  have e : resCfAx sig dxinv dyinv crse p i j = resCfAx s dxinv dyinv (fun _ _ => true) p i j := by
    simp only [resCfAx, s, if_true]
    cases crse (i - 1) (j - 1) <;> cases crse i (j - 1) <;> cases crse (i - 1) j <;> cases crse i j <;> simp
  rw [e]
  clear_value s
  simp only [resCfAx, linApply, helmApply, helmStencil, Bool.false_eq_true, if_false, p, Int.cast_sub, Int.cast_add, Int.cast_one, if_true]
  constructor
  · field_simp
    ring
  · field_simp
    ring

end Plain

/-- **C145.** (Disagreement.) The composite residual at a node between two levels was not adapted: it uses the weights `2/6, 1/6` of bilinear elements while the operator of this class uses `3/8, 1/8` and the other operator `1/4, 1/4`, so an exact solution of the equations on both sides of the node has a residual there. -/
theorem res_cf_wrong : ∃ (crse : ℤ → ℤ → Bool) (p : ℤ → ℤ → ℚ),
    let s : ℤ → ℤ → ℚ := fun i j => if crse i j then 1 else 0
    resCfAx (fun _ _ => 1) 1 1 crse p 0 0 ≠ linApply ⟨s, fun _ _ => 0, 1, 1⟩ (fun _ _ => false) p 0 0
    ∧ resCfAx (fun _ _ => 1) 1 1 crse p 0 0 ≠ helmApply ⟨s, fun _ _ => 0, fun _ _ => 0, fun _ _ => 0, 1, 1⟩ (fun _ _ => false) p 0 0 :=
  ⟨fun i _ => decide (i < 0), fun i j => if i = -1 ∧ j = 0 then 1 else 0, by decide +kernel⟩

/-- **C145.** (Disagreement with "the corrected velocity is divergence free".) On a periodic grid there are a velocity and a solution of its pressure equation such that the corrected velocity has a divergence. -/
theorem lin_projection_wrong : ∃ (u v x : ZMod 3 → ZMod 3 → ℚ),
    let c : LinCoef (ZMod 3) (ZMod 3) ℚ := ⟨fun _ _ => 1, fun _ _ => 0, 1, 1⟩
    (∀ i j, linApply c (fun _ _ => false) x i j = nodeDivu 1 1 (fun _ _ => false) u v i j)
    ∧ nodeDivu 1 1 (fun _ _ => false) (mkNewU 1 c.sig u x) (mkNewV 1 c.sig v x) 0 0 ≠ 0 := by
  refine ⟨fun i j => if i = 0 then (if j = 1 then 2 else -2) else if i = 1 then (if j = 1 then 0 else -1 / 2) else 0,
    fun i j => if i = 0 then (if j = 0 then -2 else if j = 1 then -1 else 0) else 0, fun i j => if i = 0 ∧ j = 0 then 1 else 0, ?_⟩
  decide +kernel

/-- Coefficients that meet the hypotheses. -/
def linSample (a : ℚ) : LinCoef (ZMod 4) (ZMod 2) ℚ := ⟨fun i _ => if i = 0 then 2 else 1, fun _ _ => a, 2, 3⟩

theorem linSample_valid {a : ℚ} (h : a ≤ 0) : (linSample a).Valid :=
  ⟨fun i _ => by simp only [linSample]; split <;> norm_num, fun _ _ => h, by simp [linSample], by simp [linSample]⟩

example : ∃! x : ZMod 4 → ZMod 2 → ℚ, ∀ i j, linApply (linSample (-1)) (fun _ _ => false) x i j = if i = 0 then 1 else 0 :=
  lin_solvable (linSample_valid (by norm_num)) (fun _ _ => by simp [linSample]) _

example : ∃ x : ZMod 4 → ZMod 2 → ℚ, ∀ i j, linApply (linSample 0) (fun _ _ => false) x i j = if i = 0 then 1 else if i = 2 then -1 else 0 :=
  (lin_solvable_incompressible (linSample_valid le_rfl) (fun _ _ => rfl) _).1.2 (by decide +kernel)

end Fub
