import Verif.Lemmas.RelaxContract
import Verif.Model.NodalRelax
import Verif.Spec.NodalHelm
import Verif.Props.NodalSmooth
import Mathlib.Tactic.Linarith
import Mathlib.Tactic.Ring

/-!
The energy of the nodal operator for fields that vanish outside of a finite set of nodes.
-/

namespace Fub

/-- A field on the nodes of `S`, extended by zero. -/
def extField (S : Finset (ℤ × ℤ)) (v : S → ℝ) (i j : ℤ) : ℝ := if h : (i, j) ∈ S then v ⟨(i, j), h⟩ else 0

theorem extField_add (S : Finset (ℤ × ℤ)) (v w : S → ℝ) (i j : ℤ) : extField S (v + w) i j = extField S v i j + extField S w i j := by
  unfold extField; split <;> simp

theorem extField_smul (S : Finset (ℤ × ℤ)) (a : ℝ) (v : S → ℝ) (i j : ℤ) : extField S (a • v) i j = a * extField S v i j := by
  unfold extField; split <;> simp

theorem extField_mem {S : Finset (ℤ × ℤ)} (v : S → ℝ) (p : S) : extField S v p.1.1 p.1.2 = v p := by
  unfold extField; rw [dif_pos p.2]

theorem extField_not {S : Finset (ℤ × ℤ)} (v : S → ℝ) {i j : ℤ} (h : (i, j) ∉ S) : extField S v i j = 0 := by
  unfold extField; rw [dif_neg h]

theorem extField_restrict {S : Finset (ℤ × ℤ)} {x : ℤ → ℤ → ℝ} (h : ∀ i j, (i, j) ∉ S → x i j = 0) :
    extField S (fun p => x p.1.1 p.1.2) = x := by
  funext i j
  by_cases hp : (i, j) ∈ S
  · exact extField_mem (fun p : S => x p.1.1 p.1.2) ⟨(i, j), hp⟩
  · rw [extField_not _ hp, h i j hp]

/-- The cells around a node. -/
def cellsAt (p : ℤ × ℤ) : Finset (ℤ × ℤ) := {(p.1 - 1, p.2 - 1), (p.1, p.2 - 1), (p.1 - 1, p.2), (p.1, p.2)}

/-- The cells that touch a set of nodes. -/
def touched (S : Finset (ℤ × ℤ)) : Finset (ℤ × ℤ) := S.biUnion cellsAt

theorem sum_cellsAt (p : ℤ × ℤ) (f : ℤ × ℤ → ℝ) :
    ∑ q ∈ cellsAt p, f q = f (p.1 - 1, p.2 - 1) + f (p.1, p.2 - 1) + f (p.1 - 1, p.2) + f (p.1, p.2) := by
  obtain ⟨i, j⟩ := p
  unfold cellsAt
  rw [Finset.sum_insert, Finset.sum_insert, Finset.sum_insert, Finset.sum_singleton]
  · ring
  all_goals simp

/-- The form without restriction to a finite dimensional space. -/
noncomputable def relaxForm (c : HelmCoef ℤ ℤ ℝ) (S : Finset (ℤ × ℤ)) (x y : ℤ → ℤ → ℝ) : ℝ :=
  ∑ q ∈ touched S, c.sig q.1 q.2 * (cellGradX c.dxinv x q.1 q.2 * cellGradX c.dxinv y q.1 q.2 + cellGradY c.dyinv x q.1 q.2 * cellGradY c.dyinv y q.1 q.2)
    - ∑ p ∈ S, c.alp p.1 p.2 * x p.1 p.2 * y p.1 p.2

theorem cellGradX_add (a : ℝ) (x y : ℤ → ℤ → ℝ) (i j : ℤ) : cellGradX a (fun i j => x i j + y i j) i j = cellGradX a x i j + cellGradX a y i j := by
  simp only [cellGradX]; ring
theorem cellGradY_add (a : ℝ) (x y : ℤ → ℤ → ℝ) (i j : ℤ) : cellGradY a (fun i j => x i j + y i j) i j = cellGradY a x i j + cellGradY a y i j := by
  simp only [cellGradY]; ring
theorem cellGradX_smul (a t : ℝ) (x : ℤ → ℤ → ℝ) (i j : ℤ) : cellGradX a (fun i j => t * x i j) i j = t * cellGradX a x i j := by
  simp only [cellGradX]; ring
theorem cellGradY_smul (a t : ℝ) (x : ℤ → ℤ → ℝ) (i j : ℤ) : cellGradY a (fun i j => t * x i j) i j = t * cellGradY a x i j := by
  simp only [cellGradY]; ring

theorem relaxForm_symm (c : HelmCoef ℤ ℤ ℝ) (S : Finset (ℤ × ℤ)) (x y : ℤ → ℤ → ℝ) : relaxForm c S x y = relaxForm c S y x := by
  unfold relaxForm
  congr 1
  · exact Finset.sum_congr rfl fun _ _ => by ring
  · exact Finset.sum_congr rfl fun _ _ => by ring

theorem relaxForm_add (c : HelmCoef ℤ ℤ ℝ) (S : Finset (ℤ × ℤ)) (x y z : ℤ → ℤ → ℝ) :
    relaxForm c S x (fun i j => y i j + z i j) = relaxForm c S x y + relaxForm c S x z := by
  unfold relaxForm
  have e1 : ∀ q : ℤ × ℤ, c.sig q.1 q.2 * (cellGradX c.dxinv x q.1 q.2 * cellGradX c.dxinv (fun i j => y i j + z i j) q.1 q.2 + cellGradY c.dyinv x q.1 q.2 * cellGradY c.dyinv (fun i j => y i j + z i j) q.1 q.2)
      = c.sig q.1 q.2 * (cellGradX c.dxinv x q.1 q.2 * cellGradX c.dxinv y q.1 q.2 + cellGradY c.dyinv x q.1 q.2 * cellGradY c.dyinv y q.1 q.2)
        + c.sig q.1 q.2 * (cellGradX c.dxinv x q.1 q.2 * cellGradX c.dxinv z q.1 q.2 + cellGradY c.dyinv x q.1 q.2 * cellGradY c.dyinv z q.1 q.2) := by
    intro q; rw [cellGradX_add, cellGradY_add]; ring
  have e2 : ∀ p : ℤ × ℤ, c.alp p.1 p.2 * x p.1 p.2 * (y p.1 p.2 + z p.1 p.2) = c.alp p.1 p.2 * x p.1 p.2 * y p.1 p.2 + c.alp p.1 p.2 * x p.1 p.2 * z p.1 p.2 := by
    intro p; ring
  simp only [e1, e2, Finset.sum_add_distrib]
  ring

theorem relaxForm_smul (c : HelmCoef ℤ ℤ ℝ) (S : Finset (ℤ × ℤ)) (x y : ℤ → ℤ → ℝ) (t : ℝ) :
    relaxForm c S x (fun i j => t * y i j) = t * relaxForm c S x y := by
  unfold relaxForm
  rw [mul_sub, Finset.mul_sum, Finset.mul_sum]
  congr 1
  · exact Finset.sum_congr rfl fun q _ => by rw [cellGradX_smul, cellGradY_smul]; ring
  · exact Finset.sum_congr rfl fun p _ => by ring

/-- The form on the finite dimensional space of the fields on `S`. -/
noncomputable def relaxB (c : HelmCoef ℤ ℤ ℝ) (S : Finset (ℤ × ℤ)) : (S → ℝ) →ₗ[ℝ] (S → ℝ) →ₗ[ℝ] ℝ :=
  LinearMap.mk₂ ℝ (fun v w => relaxForm c S (extField S v) (extField S w))
    (fun v v' w => by
      rw [relaxForm_symm, relaxForm_symm c S (extField S v), relaxForm_symm c S (extField S v'), ← relaxForm_add]
      congr 1; funext i j; exact extField_add S v v' i j)
    (fun t v w => by
      rw [relaxForm_symm, relaxForm_symm c S (extField S v), smul_eq_mul, ← relaxForm_smul]
      congr 1; funext i j; exact extField_smul S t v i j)
    (fun v w w' => by
      rw [← relaxForm_add]; congr 1; funext i j; exact extField_add S w w' i j)
    (fun t v w => by
      rw [smul_eq_mul, ← relaxForm_smul]; congr 1; funext i j; exact extField_smul S t w i j)

theorem relaxB_apply (c : HelmCoef ℤ ℤ ℝ) (S : Finset (ℤ × ℤ)) (v w : S → ℝ) : relaxB c S v w = relaxForm c S (extField S v) (extField S w) := rfl

theorem relaxB_symm (c : HelmCoef ℤ ℤ ℝ) (S : Finset (ℤ × ℤ)) (v w : S → ℝ) : relaxB c S v w = relaxB c S w v := relaxForm_symm c S _ _

/-- A field that is one at a node and zero elsewhere. -/
def nodeDelta (p : ℤ × ℤ) (i j : ℤ) : ℝ := if i = p.1 ∧ j = p.2 then 1 else 0

theorem extField_single {S : Finset (ℤ × ℤ)} (p : S) : extField S (Pi.single p 1) = nodeDelta p.1 := by
  funext i j
  unfold nodeDelta
  by_cases hp : (i, j) ∈ S
  · rw [extField_mem (Pi.single p (1 : ℝ)) ⟨(i, j), hp⟩, Pi.single_apply]
    have : ((⟨(i, j), hp⟩ : S) = p) ↔ (i = p.1.1 ∧ j = p.1.2) := by
      rw [Subtype.ext_iff, Prod.ext_iff]
    by_cases h : i = p.1.1 ∧ j = p.1.2
    · rw [if_pos (this.2 h), if_pos h]
    · rw [if_neg (fun q => h (this.1 q)), if_neg h]
  · rw [extField_not _ hp, if_neg]
    rintro ⟨rfl, rfl⟩; exact hp p.2

/-- Testing with a node gives minus the operator at this node. -/
theorem relaxForm_delta {c : HelmCoef ℤ ℤ ℝ} (h0 : ∀ i j, c.sigc0 i j = 0) (h1 : ∀ i j, c.sigc1 i j = 0) {S : Finset (ℤ × ℤ)} {p : ℤ × ℤ} (hp : p ∈ S) (x : ℤ → ℤ → ℝ) :
    relaxForm c S x (nodeDelta p) = -helmStencil c x p.1 p.2 := by
  obtain ⟨i, j⟩ := p
  have hsub : cellsAt (i, j) ⊆ touched S := Finset.subset_biUnion_of_mem cellsAt hp
  unfold relaxForm
  rw [← Finset.sum_subset hsub, sum_cellsAt, Finset.sum_eq_single (i, j)]
  · have a1 : ∀ a : ℤ, ¬ a - 1 = a := by intro a; omega
    have a2 : ∀ a : ℤ, ¬ a + 1 = a := by intro a; omega
    simp only [cellGradX, cellGradY, nodeDelta, a1, a2, sub_add_cancel, false_and, and_false, if_false, and_self, if_true, helmStencil, h0, h1]
    ring
  · intro q _ hq
    have : nodeDelta (i, j) q.1 q.2 = 0 := if_neg fun h => hq (Prod.ext h.1 h.2)
    rw [this]; ring
  · intro h; exact absurd hp h
  · intro q _ hq
    have hz : ∀ a b : ℤ, (a = q.1 ∨ a = q.1 + 1) → (b = q.2 ∨ b = q.2 + 1) → nodeDelta (i, j) a b = 0 := by
      intro a b ha hb
      refine if_neg ?_
      rintro ⟨rfl, rfl⟩
      apply hq
      obtain ⟨q1, q2⟩ := q
      simp only at ha hb
      simp only [cellsAt, Finset.mem_insert, Finset.mem_singleton, Prod.mk.injEq]
      omega
    simp only [cellGradX, cellGradY]
    rw [hz q.1 q.2 (Or.inl rfl) (Or.inl rfl), hz (q.1 + 1) q.2 (Or.inr rfl) (Or.inl rfl), hz q.1 (q.2 + 1) (Or.inl rfl) (Or.inr rfl), hz (q.1 + 1) (q.2 + 1) (Or.inr rfl) (Or.inr rfl)]
    ring

theorem helmStencil_delta (c : HelmCoef ℤ ℤ ℝ) (p : ℤ × ℤ) : helmStencil c (nodeDelta p) p.1 p.2 = helmDiag c p.1 p.2 := by
  obtain ⟨i, j⟩ := p
  have a1 : ∀ a : ℤ, ¬ a - 1 = a := by intro a; omega
  have a2 : ∀ a : ℤ, ¬ a + 1 = a := by intro a; omega
  simp only [helmStencil, helmDiag, nodeDelta, a1, a2, false_and, and_false, if_false, and_self, if_true]
  ring

section Form
variable {c : HelmCoef ℤ ℤ ℝ} {S : Finset (ℤ × ℤ)}

theorem relaxB_single (h0 : ∀ i j, c.sigc0 i j = 0) (h1 : ∀ i j, c.sigc1 i j = 0) (v : S → ℝ) (p : S) :
    relaxB c S v (Pi.single p 1) = -helmStencil c (extField S v) p.1.1 p.1.2 := by
  rw [relaxB_apply, extField_single, relaxForm_delta h0 h1 p.2]

theorem relaxB_sum (h0 : ∀ i j, c.sigc0 i j = 0) (h1 : ∀ i j, c.sigc1 i j = 0) (v w : S → ℝ) :
    relaxB c S v w = ∑ p, w p * -helmStencil c (extField S v) p.1.1 p.1.2 := by
  have hw : w = ∑ p, w p • (Pi.single p (1 : ℝ) : S → ℝ) := by
    funext q
    rw [Finset.sum_apply, Finset.sum_eq_single q]
    · simp
    · intro b _ hb; simp [Ne.symm hb]
    · intro h; exact absurd (Finset.mem_univ q) h
  conv_lhs => rw [hw]
  rw [map_sum]
  exact Finset.sum_congr rfl fun p _ => by rw [map_smul, smul_eq_mul, relaxB_single h0 h1]

/-- A field with bounded support whose gradient vanishes in all cells vanishes. -/
theorem zero_of_grad {dx dy : ℝ} (hx : dx ≠ 0) (hy : dy ≠ 0) {x : ℤ → ℤ → ℝ} (hs : ∀ i j, (i, j) ∉ S → x i j = 0)
    (hg : ∀ i j, cellGradX dx x i j = 0 ∧ cellGradY dy x i j = 0) (i j : ℤ) : x i j = 0 := by
  have hd : ∀ i j, x (i + 1) (j + 1) = x i j := by
    intro i j
    have h1 := (mul_eq_zero.1 (hg i j).1).resolve_right hx
    have h2 := (mul_eq_zero.1 (hg i j).2).resolve_right hy
    linarith
  have hn : ∀ n : ℕ, x (i + n) (j + n) = x i j := by
    intro n
    induction n with
    | zero => simp
    | succ n ih =>
      have := hd (i + n) (j + n)
      rw [← ih, ← this]; push_cast; rw [add_assoc, add_assoc]
  obtain ⟨n, hn'⟩ : ∃ n : ℕ, (i + n, j + n) ∉ S := by
    by_contra hcon
    push Not at hcon
    have : Set.Infinite (S : Set (ℤ × ℤ)) := by
      refine Set.infinite_of_injective_forall_mem (f := fun n : ℕ => (i + (n : ℤ), j + (n : ℤ))) ?_ hcon
      intro a b hab
      simpa using (Prod.ext_iff.1 hab).1
    exact this S.finite_toSet
  rw [← hn n]; exact hs _ _ hn'

theorem relaxB_pos (hc : c.Valid) (hx : c.dxinv ≠ 0) (hy : c.dyinv ≠ 0) (v : S → ℝ) (hv : v ≠ 0) : 0 < relaxB c S v v := by
  have hA : ∀ q ∈ touched S, 0 ≤ c.sig q.1 q.2 * (cellGradX c.dxinv (extField S v) q.1 q.2 * cellGradX c.dxinv (extField S v) q.1 q.2 + cellGradY c.dyinv (extField S v) q.1 q.2 * cellGradY c.dyinv (extField S v) q.1 q.2) :=
    fun q _ => mul_nonneg (hc.sig_pos _ _).le (add_nonneg (mul_self_nonneg _) (mul_self_nonneg _))
  have hN : ∀ p ∈ S, c.alp p.1 p.2 * extField S v p.1 p.2 * extField S v p.1 p.2 ≤ 0 := by
    intro p _
    rw [mul_assoc]; exact mul_nonpos_of_nonpos_of_nonneg (hc.alp_nonpos _ _) (mul_self_nonneg _)
  have h1 := Finset.sum_nonneg hA
  have h2 := Finset.sum_nonpos hN
  rw [relaxB_apply]; unfold relaxForm
  by_contra hneg
  have hz : ∑ q ∈ touched S, c.sig q.1 q.2 * (cellGradX c.dxinv (extField S v) q.1 q.2 * cellGradX c.dxinv (extField S v) q.1 q.2 + cellGradY c.dyinv (extField S v) q.1 q.2 * cellGradY c.dyinv (extField S v) q.1 q.2) = 0 := by
    push Not at hneg
    linarith
  have hz' := (Finset.sum_eq_zero_iff_of_nonneg hA).1 hz
  apply hv
  funext p
  have hall : ∀ i j, cellGradX c.dxinv (extField S v) i j = 0 ∧ cellGradY c.dyinv (extField S v) i j = 0 := by
    intro i j
    by_cases hq : (i, j) ∈ touched S
    · have := (mul_eq_zero.1 (hz' (i, j) hq)).resolve_left (hc.sig_pos _ _).ne'
      simp only at this
      exact ⟨by nlinarith [mul_self_nonneg (cellGradX c.dxinv (extField S v) i j), mul_self_nonneg (cellGradY c.dyinv (extField S v) i j)],
        by nlinarith [mul_self_nonneg (cellGradX c.dxinv (extField S v) i j), mul_self_nonneg (cellGradY c.dyinv (extField S v) i j)]⟩
    · have hz : ∀ a b : ℤ, (a = i ∨ a = i + 1) → (b = j ∨ b = j + 1) → extField S v a b = 0 := by
        intro a b ha hb
        refine extField_not v fun hab => hq ?_
        unfold touched
        rw [Finset.mem_biUnion]
        refine ⟨(a, b), hab, ?_⟩
        simp only [cellsAt, Finset.mem_insert, Finset.mem_singleton, Prod.mk.injEq]
        omega
      simp only [cellGradX, cellGradY]
      rw [hz i j (Or.inl rfl) (Or.inl rfl), hz (i + 1) j (Or.inr rfl) (Or.inl rfl), hz i (j + 1) (Or.inl rfl) (Or.inr rfl), hz (i + 1) (j + 1) (Or.inr rfl) (Or.inr rfl)]
      constructor <;> ring
  have := zero_of_grad hx hy (fun i j h => extField_not v h) hall p.1.1 p.1.2
  rw [extField_mem] at this
  exact this

end Form

end Fub
