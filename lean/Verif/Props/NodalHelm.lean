import Verif.Spec.NodalHelm
import Verif.Props.IndexBox
import Mathlib.Algebra.BigOperators.Group.Finset.Basic
import Mathlib.Algebra.Order.BigOperators.Group.Finset
import Mathlib.Algebra.BigOperators.Ring.Finset
import Mathlib.LinearAlgebra.FiniteDimensional.Basic
import Mathlib.LinearAlgebra.FiniteDimensional.Lemmas
import Mathlib.Tactic.Ring
import Mathlib.Tactic.Linarith
import Mathlib.Tactic.FieldSimp
import Mathlib.Tactic.LinearCombination
import Mathlib.Tactic.FinCases

/-!
C99 (the operator is the divergence of a flux), C100 (solvability on periodic grids).
-/

namespace Fub
open Finset

section Algebra
variable {I J K : Type} [AddGroupWithOne I] [AddGroupWithOne J] [Field K] [CharZero K]

omit [CharZero K] in
/-- **C99.** The nodal divergence kernel is the central difference, and vanishes on masked nodes. -/
theorem node_divergence (dxinv dyinv : K) (msk : I → J → Bool) (u v : I → J → K) (i : I) (j : J) :
    nodeDivu dxinv dyinv msk u v i j = if msk i j then 0 else nodeDiv dxinv dyinv u v i j := by
  unfold nodeDivu nodeDiv
  split <;> ring

omit [CharZero K] in
/-- **C99.** The computed flux is minus `σ` times the gradient. -/
theorem get_fluxes (dxinv dyinv : K) (sig p : I → J → K) (i : I) (j : J) :
    getFluxU dxinv sig p i j = -(sig i j * cellGradX dxinv p i j) ∧ getFluxV dyinv sig p i j = -(sig i j * cellGradY dyinv p i j) := by
  unfold getFluxU getFluxV mkNewU mkNewV cellGradX cellGradY
  constructor <;> ring

/-- **C99.** At an unmasked node the operator is the divergence of the flux plus the diagonal term, on a masked node it is zero. -/
theorem helm_apply_flux (c : HelmCoef I J K) (msk : I → J → Bool) (x : I → J → K) (i : I) (j : J) :
    helmApply c msk x i j = if msk i j then 0 else nodeDiv c.dxinv c.dyinv (helmFluxX c x) (helmFluxY c x) i j + c.alp i j * x i j := by
  unfold helmApply
  split
  · rfl
  · unfold helmStencil nodeDiv helmFluxX helmFluxY cellGradX cellGradY
    simp only [sub_add_cancel]
    have h2 : (2 : K) ≠ 0 := two_ne_zero
    have h4 : (4 : K) ≠ 0 := by norm_num
    field_simp
    ring

/-- **C99.** A constant pressure has no flux: the operator without diagonal term maps it to zero. -/
theorem helm_apply_const (c : HelmCoef I J K) (msk : I → J → Bool) (a : K) (i : I) (j : J) :
    helmApply c msk (fun _ _ => a) i j = if msk i j then 0 else c.alp i j * a := by
  rw [helm_apply_flux]
  split
  · rfl
  · simp only [nodeDiv, helmFluxX, helmFluxY, cellGradX, cellGradY]; ring

end Algebra

section Periodic
variable {I J K : Type} [AddGroupWithOne I] [AddGroupWithOne J] [Fintype I] [Fintype J] [Field K]

theorem gridSum_add (f g : I → J → K) : gridSum (fun i j => f i j + g i j) = gridSum f + gridSum g := by
  simp only [gridSum, Finset.sum_add_distrib]

theorem gridSum_shift (f : I → J → K) (a : I) (b : J) : gridSum (fun i j => f (i - a) (j - b)) = gridSum f := by
  unfold gridSum
  rw [← Equiv.sum_comp (Equiv.subRight a) (fun i => ∑ j, f i j)]
  refine Finset.sum_congr rfl fun i _ => ?_
  rw [← Equiv.sum_comp (Equiv.subRight b) (fun j => f _ j)]
  rfl

theorem gridSum_corner (h1 h2 h3 h4 : I → J → K) :
    gridSum (fun i j => h1 (i - 1) (j - 1) + h2 i (j - 1) + h3 (i - 1) j + h4 i j) = gridSum (fun i j => h1 i j + h2 i j + h3 i j + h4 i j) := by
  simp only [gridSum_add]
  have e1 := gridSum_shift h1 1 1
  have e2 := gridSum_shift h2 0 1
  have e3 := gridSum_shift h3 1 0
  simp only [sub_zero] at e2 e3
  rw [e1, e2, e3]

/-- **C99.** Discrete integration by parts on a periodic grid: divergence and gradient are negative adjoints. -/
theorem node_div_adjoint (dxinv dyinv : K) (u v x : I → J → K) :
    gridSum (fun i j => x i j * nodeDiv dxinv dyinv u v i j) = -gridSum (fun i j => u i j * cellGradX dxinv x i j + v i j * cellGradY dyinv x i j) := by
  have hc := gridSum_corner (K := K) (fun (i : I) (j : J) => x (i + 1) (j + 1) * (-(u i j * dxinv) - v i j * dyinv) / 2) (fun i j => x i (j + 1) * (u i j * dxinv - v i j * dyinv) / 2)
    (fun i j => x (i + 1) j * (-(u i j * dxinv) + v i j * dyinv) / 2) (fun i j => x i j * (u i j * dxinv + v i j * dyinv) / 2)
  simp only [sub_add_cancel] at hc
  calc _ = _ := by
        congr 1; funext i j
        unfold nodeDiv
        show _ = x i j * (-(u (i - 1) (j - 1) * dxinv) - v (i - 1) (j - 1) * dyinv) / 2 + x i j * (u i (j - 1) * dxinv - v i (j - 1) * dyinv) / 2
          + x i j * (-(u (i - 1) j * dxinv) + v (i - 1) j * dyinv) / 2 + x i j * (u i j * dxinv + v i j * dyinv) / 2
        ring
    _ = _ := hc
    _ = _ := by
        unfold gridSum
        simp only [← Finset.sum_neg_distrib]
        refine Finset.sum_congr rfl fun i _ => Finset.sum_congr rfl fun j _ => ?_
        unfold cellGradX cellGradY
        ring

/-- **C99.** On a periodic grid the divergence of every vector field sums up to zero, so the right-hand side of the pseudo-incompressible pressure equation is always compatible. -/
theorem node_div_sum (dxinv dyinv : K) (u v : I → J → K) : gridSum (nodeDiv dxinv dyinv u v) = 0 := by
  have := node_div_adjoint dxinv dyinv u v (fun _ _ => 1)
  simp only [one_mul] at this
  rw [show gridSum (nodeDiv dxinv dyinv u v) = gridSum (fun i j => nodeDiv dxinv dyinv u v i j) from rfl, this]
  simp [gridSum, cellGradX, cellGradY]

variable [LinearOrder K] [IsStrictOrderedRing K]

/-- The diagonal of the quadratic form of the operator. -/
theorem helm_energy (c : HelmCoef I J K) (x : I → J → K) :
    gridSum (fun i j => x i j * helmApply c (fun _ _ => false) x i j)
      = gridSum (fun i j => c.alp i j * x i j ^ 2 - c.sig i j * (cellGradX c.dxinv x i j ^ 2 + cellGradY c.dyinv x i j ^ 2)
          - (c.sigc0 i j + c.sigc1 i j) * (cellGradX c.dxinv x i j * cellGradY c.dyinv x i j)) := by
  have e := node_div_adjoint c.dxinv c.dyinv (helmFluxX c x) (helmFluxY c x) x
  have e1 : gridSum (fun i j => x i j * helmApply c (fun _ _ => false) x i j)
      = gridSum (fun i j => x i j * nodeDiv c.dxinv c.dyinv (helmFluxX c x) (helmFluxY c x) i j + c.alp i j * x i j ^ 2) := by
    congr 1; funext i j
    rw [helm_apply_flux]
    simp only [Bool.false_eq_true, if_false]; ring
  rw [e1, gridSum_add, e]
  unfold gridSum
  rw [← Finset.sum_neg_distrib, ← Finset.sum_add_distrib]
  refine Finset.sum_congr rfl fun i _ => ?_
  rw [← Finset.sum_neg_distrib, ← Finset.sum_add_distrib]
  refine Finset.sum_congr rfl fun j _ => ?_
  unfold helmFluxX helmFluxY
  ring

omit [AddGroupWithOne I] [AddGroupWithOne J] in
theorem gridSum_eq_zero {f : I → J → K} (hf : ∀ i j, 0 ≤ f i j) (h : gridSum f = 0) (i : I) (j : J) : f i j = 0 := by
  unfold gridSum at h
  rw [Finset.sum_eq_zero_iff_of_nonneg (fun i _ => Finset.sum_nonneg fun j _ => hf i j)] at h
  have := h i (mem_univ i)
  rw [Finset.sum_eq_zero_iff_of_nonneg (fun j _ => hf i j)] at this
  exact this j (mem_univ j)

/-- The coefficients that the low Mach number integrator sets on a level: positive weight, antisymmetric cross terms and a diagonal of one sign. -/
structure HelmCoef.Valid (c : HelmCoef I J K) : Prop where
  sig_pos : ∀ i j, 0 < c.sig i j
  cross : ∀ i j, c.sigc1 i j = -c.sigc0 i j
  alp_nonpos : ∀ i j, c.alp i j ≤ 0

theorem helm_energy_terms {c : HelmCoef I J K} (hc : c.Valid) {x : I → J → K} (h : ∀ i j, helmApply c (fun _ _ => false) x i j = 0) (i : I) (j : J) :
    c.alp i j * x i j = 0 ∧ cellGradX c.dxinv x i j = 0 ∧ cellGradY c.dyinv x i j = 0 := by
  have e := helm_energy c x
  simp only [h, mul_zero, hc.cross, add_neg_cancel, zero_mul, sub_zero] at e
  have e0 : gridSum (fun i j => c.sig i j * (cellGradX c.dxinv x i j ^ 2 + cellGradY c.dyinv x i j ^ 2) + -c.alp i j * x i j ^ 2) = 0 := by
    have : gridSum (fun (i : I) (j : J) => (0 : K)) = 0 := by simp [gridSum]
    rw [this] at e
    unfold gridSum at e ⊢
    rw [← neg_eq_zero, ← Finset.sum_neg_distrib, e]
    refine Finset.sum_congr rfl fun i _ => ?_
    rw [← Finset.sum_neg_distrib]
    refine Finset.sum_congr rfl fun j _ => ?_
    ring
  have hs := hc.sig_pos i j
  have ha := hc.alp_nonpos i j
  have hz := gridSum_eq_zero (fun i j => by
    have hs := hc.sig_pos i j
    have ha := hc.alp_nonpos i j
    have := mul_nonneg hs.le (add_nonneg (sq_nonneg (cellGradX c.dxinv x i j)) (sq_nonneg (cellGradY c.dyinv x i j)))
    have := mul_nonneg (neg_nonneg.2 ha) (sq_nonneg (x i j))
    linarith) e0 i j
  have hz : c.sig i j * (cellGradX c.dxinv x i j ^ 2 + cellGradY c.dyinv x i j ^ 2) + -c.alp i j * x i j ^ 2 = 0 := hz
  have h1 := mul_nonneg hs.le (add_nonneg (sq_nonneg (cellGradX c.dxinv x i j)) (sq_nonneg (cellGradY c.dyinv x i j)))
  have h2 := mul_nonneg (neg_nonneg.2 ha) (sq_nonneg (x i j))
  have h3 : c.sig i j * (cellGradX c.dxinv x i j ^ 2 + cellGradY c.dyinv x i j ^ 2) = 0 := by linarith
  have h4 : -c.alp i j * x i j ^ 2 = 0 := by linarith
  have h5 := (mul_eq_zero.1 h3).resolve_left hs.ne'
  have hx := sq_nonneg (cellGradX c.dxinv x i j)
  have hy := sq_nonneg (cellGradY c.dyinv x i j)
  refine ⟨?_, pow_eq_zero_iff two_ne_zero |>.1 (by linarith), pow_eq_zero_iff two_ne_zero |>.1 (by linarith)⟩
  rcases mul_eq_zero.1 h4 with h | h
  · rw [neg_eq_zero.1 h, zero_mul]
  · rw [pow_eq_zero_iff two_ne_zero |>.1 h, mul_zero]

/-- The operator as a linear map. -/
def helmLin (c : HelmCoef I J K) : (I → J → K) →ₗ[K] (I → J → K) where
  toFun x := fun i j => helmApply c (fun _ _ => false) x i j
  map_add' x y := by
    funext i j
    simp only [helmApply, helmStencil, Pi.add_apply, Bool.false_eq_true, if_false]; ring
  map_smul' a x := by
    funext i j
    simp only [helmApply, helmStencil, Pi.smul_apply, smul_eq_mul, RingHom.id_apply, Bool.false_eq_true, if_false]; ring

/-- The divergence as a linear map. -/
def divLin (dxinv dyinv : K) : ((I → J → K) × (I → J → K)) →ₗ[K] (I → J → K) where
  toFun u := fun i j => nodeDiv dxinv dyinv u.1 u.2 i j
  map_add' x y := by
    funext i j
    simp only [nodeDiv, Prod.fst_add, Prod.snd_add, Pi.add_apply]; ring
  map_smul' a x := by
    funext i j
    simp only [nodeDiv, Prod.smul_fst, Prod.smul_snd, Pi.smul_apply, smul_eq_mul, RingHom.id_apply]; ring

/-- **C100.** Compressible case: on a periodic grid the pressure equation has exactly one solution for every right-hand side. -/
theorem helm_solvable {c : HelmCoef I J K} (hc : c.Valid) (ha : ∀ i j, c.alp i j < 0) (rhs : I → J → K) :
    ∃! x : I → J → K, ∀ i j, helmApply c (fun _ _ => false) x i j = rhs i j := by
  have hinj : Function.Injective (helmLin c) := by
    rw [injective_iff_map_eq_zero]
    intro x hx
    funext i j
    have := (helm_energy_terms hc (fun i j => congrFun (congrFun hx i) j) i j).1
    exact (mul_eq_zero.1 this).resolve_left (ha i j).ne
  obtain ⟨x, hx⟩ := LinearMap.injective_iff_surjective.1 hinj rhs
  refine ⟨x, fun i j => congrFun (congrFun hx i) j, fun y hy => hinj ?_⟩
  rw [hx]; funext i j; exact hy i j

/-- **C100.** Pseudo-incompressible case (no diagonal term): on a periodic grid the pressure equation has a solution for the divergence of every vector field, and all its solutions have the same gradient in every cell. -/
theorem helm_solvable_incompressible {c : HelmCoef I J K} (hc : c.Valid) (ha : ∀ i j, c.alp i j = 0) (u v : I → J → K) :
    (∃ x : I → J → K, ∀ i j, helmApply c (fun _ _ => false) x i j = nodeDivu c.dxinv c.dyinv (fun _ _ => false) u v i j)
    ∧ ∀ x y : I → J → K, (∀ i j, helmApply c (fun _ _ => false) x i j = nodeDivu c.dxinv c.dyinv (fun _ _ => false) u v i j) →
      (∀ i j, helmApply c (fun _ _ => false) y i j = nodeDivu c.dxinv c.dyinv (fun _ _ => false) u v i j) →
      ∀ i j, cellGradX c.dxinv x i j = cellGradX c.dxinv y i j ∧ cellGradY c.dyinv x i j = cellGradY c.dyinv y i j := by
  constructor
  · let W := LinearMap.range (divLin (I := I) (J := J) c.dxinv c.dyinv)
    have hmem : ∀ x : W, (helmLin c).domRestrict W x ∈ W := by
      intro x
      refine ⟨(helmFluxX c x.1, helmFluxY c x.1), ?_⟩
      funext i j
      show nodeDiv c.dxinv c.dyinv (helmFluxX c x.1) (helmFluxY c x.1) i j = helmApply c (fun _ _ => false) x.1 i j
      rw [helm_apply_flux]
      simp [ha]
    let f : W →ₗ[K] W := ((helmLin c).domRestrict W).codRestrict W hmem
    have hinj : Function.Injective f := by
      rw [injective_iff_map_eq_zero]
      rintro ⟨x, ⟨w, hw⟩⟩ hx
      have hx' : helmLin c x = 0 := congrArg Subtype.val hx
      have ht := helm_energy_terms hc (fun i j => congrFun (congrFun hx' i) j)
      have e := node_div_adjoint c.dxinv c.dyinv w.1 w.2 x
      have hd : ∀ i j, nodeDiv c.dxinv c.dyinv w.1 w.2 i j = x i j := fun i j => congrFun (congrFun hw i) j
      simp only [hd, (ht _ _).2.1, (ht _ _).2.2, mul_zero, add_zero] at e
      have e0 : gridSum (fun i j => x i j * x i j) = 0 := by rw [e]; simp [gridSum]
      have hz := gridSum_eq_zero (fun i j => mul_self_nonneg (x i j)) e0
      refine Subtype.ext ?_
      funext i j
      exact mul_self_eq_zero.1 (hz i j)
    obtain ⟨x, hx⟩ := LinearMap.injective_iff_surjective.1 hinj ⟨divLin c.dxinv c.dyinv (u, v), ⟨(u, v), rfl⟩⟩
    refine ⟨x.1, fun i j => ?_⟩
    have := congrFun (congrFun (congrArg Subtype.val hx) i) j
    rw [node_divergence]
    have this : helmApply c (fun _ _ => false) x.1 i j = nodeDiv c.dxinv c.dyinv u v i j := this
    simpa using this
  · intro x y hx hy i j
    have h0 : ∀ i j, helmApply c (fun _ _ => false) (x - y) i j = 0 := by
      intro i j
      have := congrFun (congrFun ((helmLin c).map_sub x y) i) j
      have : helmApply c (fun _ _ => false) (x - y) i j = helmApply c (fun _ _ => false) x i j - helmApply c (fun _ _ => false) y i j := this
      rw [this, hx, hy, sub_self]
    obtain ⟨-, h1, h2⟩ := helm_energy_terms hc h0 i j
    constructor
    · have : cellGradX c.dxinv (x - y) i j = cellGradX c.dxinv x i j - cellGradX c.dxinv y i j := by
        simp only [cellGradX, Pi.sub_apply]; ring
      linarith
    · have : cellGradY c.dyinv (x - y) i j = cellGradY c.dyinv x i j - cellGradY c.dyinv y i j := by
        simp only [cellGradY, Pi.sub_apply]; ring
      linarith

/-- **C100.** The kernel of the operator without diagonal term: exactly the nodal functions that agree on the two diagonals of every cell. -/
theorem helm_kernel {c : HelmCoef I J K} (hc : c.Valid) (ha : ∀ i j, c.alp i j = 0) (hx : c.dxinv ≠ 0) (hy : c.dyinv ≠ 0) (x : I → J → K) :
    (∀ i j, helmApply c (fun _ _ => false) x i j = 0) ↔ ∀ i j, x (i + 1) (j + 1) = x i j ∧ x (i + 1) j = x i (j + 1) := by
  constructor
  · intro h i j
    obtain ⟨-, h1, h2⟩ := helm_energy_terms hc h i j
    have h1 := (mul_eq_zero.1 h1).resolve_right hx
    have h2 := (mul_eq_zero.1 h2).resolve_right hy
    constructor <;> linarith
  · intro h i j
    have hgx : ∀ i j, cellGradX c.dxinv x i j = 0 := by intro i j; unfold cellGradX; rw [(h i j).1, (h i j).2]; ring
    have hgy : ∀ i j, cellGradY c.dyinv x i j = 0 := by intro i j; unfold cellGradY; rw [(h i j).1, (h i j).2]; ring
    rw [helm_apply_flux]
    simp [nodeDiv, helmFluxX, helmFluxY, hgx, hgy, ha]

end Periodic

/-- **C100.** (Disagreement with "the pressure is unique up to a constant".) On a grid with an even number of nodes the operator also annihilates the checkerboard. -/
theorem helm_checkerboard : ∃ x : ZMod 2 → ZMod 2 → ℚ, (∃ i j k l, x i j ≠ x k l) ∧
    ∀ c : HelmCoef (ZMod 2) (ZMod 2) ℚ, (∀ i j, c.alp i j = 0) → ∀ i j, helmApply c (fun _ _ => false) x i j = 0 := by
  refine ⟨fun i j => if i + j = 0 then 1 else -1, ⟨0, 0, 1, 0, by decide +kernel⟩, fun c hc i j => ?_⟩
  have hs : ∀ i j : ZMod 2, (if (i + 1) + (j + 1) = 0 then (1 : ℚ) else -1) = if i + j = 0 then 1 else -1 := by decide +kernel
  have hd : ∀ i j : ZMod 2, (if (i + 1) + j = 0 then (1 : ℚ) else -1) = if i + (j + 1) = 0 then 1 else -1 := by decide +kernel
  have hgx : ∀ a i j, cellGradX (K := ℚ) a (fun i j : ZMod 2 => if i + j = 0 then (1 : ℚ) else -1) i j = 0 := by
    intro a i j; simp only [cellGradX]; rw [hs, hd]; ring
  have hgy : ∀ a i j, cellGradY (K := ℚ) a (fun i j : ZMod 2 => if i + j = 0 then (1 : ℚ) else -1) i j = 0 := by
    intro a i j; simp only [cellGradY]; rw [hs, hd]; ring
  rw [helm_apply_flux]
  simp [nodeDiv, helmFluxX, helmFluxY, hgx, hgy, hc]

/-- Coefficients that meet the hypotheses: weight one, cross terms of size one half, diagonal minus one. -/
def helmSample (a : ℚ) : HelmCoef (ZMod 4) (ZMod 3) ℚ := ⟨fun _ _ => 1, fun _ _ => 1 / 2, fun _ _ => -1 / 2, fun _ _ => a, 2, 3⟩

theorem helmSample_valid {a : ℚ} (h : a ≤ 0) : (helmSample a).Valid :=
  ⟨fun _ _ => by simp [helmSample], fun _ _ => by simp only [helmSample]; ring, fun _ _ => h⟩

example : ∃! x : ZMod 4 → ZMod 3 → ℚ, ∀ i j, helmApply (helmSample (-1)) (fun _ _ => false) x i j = if i = 0 then 1 else 0 :=
  helm_solvable (helmSample_valid (by norm_num)) (fun _ _ => by simp [helmSample]) _

example : ∃ x : ZMod 4 → ZMod 3 → ℚ, ∀ i j, helmApply (helmSample 0) (fun _ _ => false) x i j
    = nodeDivu 2 3 (fun _ _ => false) (fun i _ => if i = 0 then 1 else 0) (fun _ j => if j = 1 then 2 else 0) i j :=
  (helm_solvable_incompressible (helmSample_valid le_rfl) (fun _ _ => rfl) _ _).1

example : helmApply (helmSample (-1)) (fun _ _ => false) (fun i j => if i = 0 ∧ j = 0 then 1 else 0) 0 0 = -14 := by
  simp only [helmApply, helmStencil, helmSample]; decide +kernel

end Fub
