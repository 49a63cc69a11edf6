import Verif.Spec.TwoLevelRhs
import Mathlib.Tactic

namespace Fub
variable {K : Type} [Field K]

theorem finSupp_mono {f g : ℤ → ℤ → K} (h : FinSupp f) (hg : ∀ i j, f i j = 0 → g i j = 0) : FinSupp g :=
  Set.Finite.subset h fun p hp => by
    simp only [Function.mem_support] at hp ⊢
    exact fun h0 => hp (hg _ _ h0)

theorem finSupp_add {f g : ℤ → ℤ → K} (hf : FinSupp f) (hg : FinSupp g) : FinSupp fun i j => f i j + g i j :=
  Set.Finite.subset (hf.union hg) (Function.support_add _ _)

theorem finSupp_mul {f : ℤ → ℤ → K} (hf : FinSupp f) (x : ℤ → ℤ → K) : FinSupp fun i j => x i j * f i j :=
  finSupp_mono hf fun i j h => by simp [h]

theorem finSupp_comp {f : ℤ → ℤ → K} (hf : FinSupp f) (g h : ℤ → ℤ) (hg : Function.Injective g) (hh : Function.Injective h) : FinSupp fun i j => f (g i) (h j) := by
  have : Function.Injective fun p : ℤ × ℤ => (g p.1, h p.2) := fun p q e => by
    simp only [Prod.mk.injEq] at e
    exact Prod.ext (hg e.1) (hh e.2)
  exact Set.Finite.preimage (this.injOn) hf

theorem finSupp_shift {f : ℤ → ℤ → K} (hf : FinSupp f) (a b : ℤ) : FinSupp fun i j => f (i + a) (j + b) :=
  finSupp_comp hf (· + a) (· + b) (fun x y e => by simpa using e) (fun x y e => by simpa using e)

theorem planeSum_add {f g : ℤ → ℤ → K} (hf : FinSupp f) (hg : FinSupp g) : planeSum (fun i j => f i j + g i j) = planeSum f + planeSum g :=
  finsum_add_distrib hf hg

theorem planeSum_mul (a : K) (f : ℤ → ℤ → K) : planeSum (fun i j => a * f i j) = a * planeSum f :=
  (mul_finsum (fun p : ℤ × ℤ => f p.1 p.2) a).symm

theorem planeSum_shift (f : ℤ → ℤ → K) (a b : ℤ) : planeSum (fun i j => f (i + a) (j + b)) = planeSum f :=
  finsum_comp_equiv ((Equiv.addRight a).prodCongr (Equiv.addRight b)) (f := fun p : ℤ × ℤ => f p.1 p.2)

theorem planeSum_four {f g h k : ℤ → ℤ → K} (hf : FinSupp f) (hg : FinSupp g) (hh : FinSupp h) (hk : FinSupp k) :
    planeSum (fun i j => f i j + g i j + h i j + k i j) = planeSum f + planeSum g + planeSum h + planeSum k := by
  rw [planeSum_add (finSupp_add (finSupp_add hf hg) hh) hk, planeSum_add (finSupp_add hf hg) hh, planeSum_add hf hg]

theorem planeSum_split {f : ℤ × ℤ → K} (hf : (Function.support f).Finite) (g0 g1 : ℤ × ℤ → ℤ × ℤ) (h0 : Function.Injective g0) (h1 : Function.Injective g1)
    (hd : Disjoint (Set.range g0) (Set.range g1)) (hu : Set.range g0 ∪ Set.range g1 = Set.univ) : ∑ᶠ p, f p = ∑ᶠ p, f (g0 p) + ∑ᶠ p, f (g1 p) := by
  rw [← finsum_mem_univ, ← hu, finsum_mem_union' hd (hf.subset Set.inter_subset_right) (hf.subset Set.inter_subset_right), finsum_mem_range h0, finsum_mem_range h1]

theorem planeSum_parity {f : ℤ → ℤ → K} (hf : FinSupp f) :
    planeSum f = planeSum (fun i j => f (2 * i) (2 * j)) + planeSum (fun i j => f (2 * i + 1) (2 * j)) + planeSum (fun i j => f (2 * i) (2 * j + 1)) + planeSum (fun i j => f (2 * i + 1) (2 * j + 1)) := by
  have cx : ∀ {g : ℤ → ℤ → K}, FinSupp g → planeSum g = planeSum (fun i j => g (2 * i) j) + planeSum (fun i j => g (2 * i + 1) j) := by
    intro g hg
    refine planeSum_split hg (fun p => (2 * p.1, p.2)) (fun p => (2 * p.1 + 1, p.2)) ?_ ?_ ?_ ?_
    · intro p q e; simp only [Prod.mk.injEq] at e; exact Prod.ext (by omega) e.2
    · intro p q e; simp only [Prod.mk.injEq] at e; exact Prod.ext (by omega) e.2
    · rw [Set.disjoint_left]; rintro x ⟨p, rfl⟩ ⟨q, hq⟩; simp only [Prod.mk.injEq] at hq; omega
    · ext x; simp only [Set.mem_union, Set.mem_range, Set.mem_univ, iff_true]
      rcases Int.emod_two_eq_zero_or_one x.1 with h | h
      · exact Or.inl ⟨(x.1 / 2, x.2), Prod.ext (by simp only; omega) rfl⟩
      · exact Or.inr ⟨(x.1 / 2, x.2), Prod.ext (by simp only; omega) rfl⟩
  have cy : ∀ {g : ℤ → ℤ → K}, FinSupp g → planeSum g = planeSum (fun i j => g i (2 * j)) + planeSum (fun i j => g i (2 * j + 1)) := by
    intro g hg
    refine planeSum_split hg (fun p => (p.1, 2 * p.2)) (fun p => (p.1, 2 * p.2 + 1)) ?_ ?_ ?_ ?_
    · intro p q e; simp only [Prod.mk.injEq] at e; exact Prod.ext e.1 (by omega)
    · intro p q e; simp only [Prod.mk.injEq] at e; exact Prod.ext e.1 (by omega)
    · rw [Set.disjoint_left]; rintro x ⟨p, rfl⟩ ⟨q, hq⟩; simp only [Prod.mk.injEq] at hq; omega
    · ext x; simp only [Set.mem_union, Set.mem_range, Set.mem_univ, iff_true]
      rcases Int.emod_two_eq_zero_or_one x.2 with h | h
      · exact Or.inl ⟨(x.1, x.2 / 2), Prod.ext rfl (by simp only; omega)⟩
      · exact Or.inr ⟨(x.1, x.2 / 2), Prod.ext rfl (by simp only; omega)⟩
  have y0 : FinSupp fun i j => f i (2 * j) := finSupp_comp hf id (fun j => 2 * j) (fun _ _ e => e) (fun x y e => by simpa using e)
  have y1 : FinSupp fun i j => f i (2 * j + 1) := finSupp_comp hf id (fun j => 2 * j + 1) (fun _ _ e => e) (fun x y e => by simpa using e)
  rw [cy hf, cx y0, cx y1]
  ring

/-- The restriction without mask. -/
def fullWeight (f : ℤ → ℤ → K) (i j : ℤ) : K := nodeRestrict (fun _ _ => false) f i j

variable [CharZero K]

theorem planeSum_corner {h1 h2 h3 h4 : ℤ → ℤ → K} (f1 : FinSupp h1) (f2 : FinSupp h2) (f3 : FinSupp h3) (f4 : FinSupp h4) :
    planeSum (fun i j => h1 (i - 1) (j - 1) + h2 i (j - 1) + h3 (i - 1) j + h4 i j) = planeSum (fun i j => h1 i j + h2 i j + h3 i j + h4 i j) := by
  have s1 := planeSum_shift h1 (-1) (-1)
  have s2 := planeSum_shift h2 0 (-1)
  have s3 := planeSum_shift h3 (-1) 0
  have g1 := finSupp_shift f1 (-1) (-1)
  have g2 := finSupp_shift f2 0 (-1)
  have g3 := finSupp_shift f3 (-1) 0
  simp only [add_zero, ← sub_eq_add_neg] at s1 s2 s3 g1 g2 g3
  rw [planeSum_four g1 g2 g3 f4, planeSum_four f1 f2 f3 f4, s1, s2, s3]

/-- Summation by parts in the plane. -/
theorem plane_parts (dxinv dyinv : K) {u v r : ℤ → ℤ → K} (hu : FinSupp u) (hv : FinSupp v) (hr : FinSupp r) (x : ℤ → ℤ → K) :
    planeSum (fun i j => x i j * (nodeDiv dxinv dyinv u v i j + nodeRhcc (fun _ _ => false) r i j)) = planeSum (cellWork dxinv dyinv x u v r) := by
  have key : ∀ (y : ℤ → ℤ → K) (a b c : K), FinSupp fun i j => y i j * (a * u i j + b * v i j + c * r i j) := by
    intro y a b c
    exact finSupp_mul (finSupp_add (finSupp_add (finSupp_mul hu fun _ _ => a) (finSupp_mul hv fun _ _ => b)) (finSupp_mul hr fun _ _ => c)) y
  have hc := planeSum_corner (key (fun i j => x (i + 1) (j + 1)) (-(dxinv / 2)) (-(dyinv / 2)) (1 / 4)) (key (fun i j => x i (j + 1)) (dxinv / 2) (-(dyinv / 2)) (1 / 4))
    (key (fun i j => x (i + 1) j) (-(dxinv / 2)) (dyinv / 2) (1 / 4)) (key x (dxinv / 2) (dyinv / 2) (1 / 4))
  simp only [sub_add_cancel] at hc
  calc _ = _ := by
        congr 1; funext i j
        unfold nodeDiv nodeRhcc
        simp only [Bool.false_eq_true, if_false]
        ring
    _ = _ := hc
    _ = _ := by
        congr 1; funext i j
        unfold cellWork cornerMean cellGradX cellGradY
        ring

theorem bilin_ee (x : ℤ → ℤ → K) (i j : ℤ) : bilin x (2 * i) (2 * j) = x i j := by
  unfold bilin
  rw [show 2 * i / 2 = i by omega, show (2 * i + 1) / 2 = i by omega, show 2 * j / 2 = j by omega, show (2 * j + 1) / 2 = j by omega]; ring

theorem bilin_oe (x : ℤ → ℤ → K) (i j : ℤ) : bilin x (2 * i + 1) (2 * j) = (x i j + x (i + 1) j) / 2 := by
  unfold bilin
  rw [show (2 * i + 1) / 2 = i by omega, show (2 * i + 1 + 1) / 2 = i + 1 by omega, show 2 * j / 2 = j by omega, show (2 * j + 1) / 2 = j by omega]; ring

theorem bilin_eo (x : ℤ → ℤ → K) (i j : ℤ) : bilin x (2 * i) (2 * j + 1) = (x i j + x i (j + 1)) / 2 := by
  unfold bilin
  rw [show 2 * i / 2 = i by omega, show (2 * i + 1) / 2 = i by omega, show (2 * j + 1) / 2 = j by omega, show (2 * j + 1 + 1) / 2 = j + 1 by omega]; ring

theorem bilin_oo (x : ℤ → ℤ → K) (i j : ℤ) : bilin x (2 * i + 1) (2 * j + 1) = (x i j + x (i + 1) j + x i (j + 1) + x (i + 1) (j + 1)) / 4 := by
  unfold bilin
  rw [show (2 * i + 1) / 2 = i by omega, show (2 * i + 1 + 1) / 2 = i + 1 by omega, show (2 * j + 1) / 2 = j by omega, show (2 * j + 1 + 1) / 2 = j + 1 by omega]

/-- Full weighting is a quarter of the adjoint of bilinear interpolation. -/
theorem fullWeight_adjoint {f : ℤ → ℤ → K} (hf : FinSupp f) (x : ℤ → ℤ → K) :
    planeSum (fun i j => x i j * fullWeight f i j) = (1 / 4) * planeSum (fun i j => bilin x i j * f i j) := by
  have c : ∀ a b : ℤ, FinSupp fun i j => f (2 * i + a) (2 * j + b) := fun a b =>
    finSupp_comp hf (fun i => 2 * i + a) (fun j => 2 * j + b) (fun x y e => by simpa using e) (fun x y e => by simpa using e)
  have k : ∀ (y : ℤ → ℤ → K) (a b : ℤ), FinSupp fun i j => y i j * f (2 * i + a) (2 * j + b) := fun y a b => finSupp_mul (c a b) y
  have e1 : (fun i j => x i j * fullWeight f i j) = fun i j =>
      (fun i j => x i j * f (2 * i) (2 * j) * (1 / 4)) i j + ((fun i j => (fun i j => x (i + 1) j * f (2 * i + 1) (2 * j) * (1 / 8)) (i - 1) j + (fun i j => x i j * f (2 * i + 1) (2 * j) * (1 / 8)) i j) i j
        + (fun i j => (fun i j => x i (j + 1) * f (2 * i) (2 * j + 1) * (1 / 8)) i (j - 1) + (fun i j => x i j * f (2 * i) (2 * j + 1) * (1 / 8)) i j) i j)
      + ((fun i j => x (i + 1) (j + 1) * f (2 * i + 1) (2 * j + 1) * (1 / 16)) (i - 1) (j - 1) + (fun i j => x i (j + 1) * f (2 * i + 1) (2 * j + 1) * (1 / 16)) i (j - 1)
        + (fun i j => x (i + 1) j * f (2 * i + 1) (2 * j + 1) * (1 / 16)) (i - 1) j + (fun i j => x i j * f (2 * i + 1) (2 * j + 1) * (1 / 16)) i j) := by
    funext i j
    simp only [fullWeight, nodeRestrict, Bool.false_eq_true, if_false, sub_add_cancel]
    rw [show i * 2 - 1 = 2 * (i - 1) + 1 by ring, show j * 2 - 1 = 2 * (j - 1) + 1 by ring, show i * 2 = 2 * i by ring, show j * 2 = 2 * j by ring]
    ring
  have fs : ∀ (y : ℤ → ℤ → K) (a b : ℤ) (w : K), FinSupp fun i j => y i j * f (2 * i + a) (2 * j + b) * w := fun y a b w => finSupp_mono (k y a b) fun i j h => by simp [h]
  have f00 := fs x 0 0 (1 / 4)
  have a1 := fs (fun i j => x (i + 1) j) 1 0 (1 / 8)
  have a2 := fs x 1 0 (1 / 8)
  have b1 := fs (fun i j => x i (j + 1)) 0 1 (1 / 8)
  have b2 := fs x 0 1 (1 / 8)
  have d1 := fs (fun i j => x (i + 1) (j + 1)) 1 1 (1 / 16)
  have d2 := fs (fun i j => x i (j + 1)) 1 1 (1 / 16)
  have d3 := fs (fun i j => x (i + 1) j) 1 1 (1 / 16)
  have d4 := fs x 1 1 (1 / 16)
  simp only [add_zero] at f00 a1 a2 b1 b2 d1 d2 d3 d4
  have a1' := finSupp_shift a1 (-1) 0
  have b1' := finSupp_shift b1 0 (-1)
  have d1' := finSupp_shift d1 (-1) (-1)
  have d2' := finSupp_shift d2 0 (-1)
  have d3' := finSupp_shift d3 (-1) 0
  have sa := planeSum_shift (fun i j => x (i + 1) j * f (2 * i + 1) (2 * j) * (1 / 8)) (-1) 0
  have sb := planeSum_shift (fun i j => x i (j + 1) * f (2 * i) (2 * j + 1) * (1 / 8)) 0 (-1)
  simp only [add_zero, ← sub_eq_add_neg] at a1' b1' d1' d2' d3' sa sb
  rw [e1, planeSum_add (finSupp_add f00 (finSupp_add (finSupp_add a1' a2) (finSupp_add b1' b2))) (finSupp_add (finSupp_add (finSupp_add d1' d2') d3') d4),
    planeSum_add f00 (finSupp_add (finSupp_add a1' a2) (finSupp_add b1' b2)), planeSum_add (finSupp_add a1' a2) (finSupp_add b1' b2),
    planeSum_add a1' a2, planeSum_add b1' b2, sa, sb, planeSum_corner d1 d2 d3 d4, ← planeSum_add a1 a2, ← planeSum_add b1 b2,
    planeSum_parity (finSupp_mul hf (bilin x)), mul_add, mul_add, mul_add]
  have m : ∀ (y : ℤ → ℤ → K) (a b : ℤ), (1 / 4) * planeSum (fun i j => y i j * f (2 * i + a) (2 * j + b)) = planeSum fun i j => (1 / 4) * (y i j * f (2 * i + a) (2 * j + b)) :=
    fun y a b => (planeSum_mul _ _).symm
  have m00 := m (fun i j => bilin x (2 * i) (2 * j)) 0 0
  have m10 := m (fun i j => bilin x (2 * i + 1) (2 * j)) 1 0
  have m01 := m (fun i j => bilin x (2 * i) (2 * j + 1)) 0 1
  have m11 := m (fun i j => bilin x (2 * i + 1) (2 * j + 1)) 1 1
  simp only [add_zero] at m00 m10 m01 m11
  rw [m00, m10, m01, m11]
  simp only [bilin_ee, bilin_oe, bilin_eo, bilin_oo]
  rw [← add_assoc]
  congr 1
  congr 1
  congr 1
  all_goals (congr 1; funext i j; ring)

theorem mem_has (b : NBox) (i j : ℤ) : b.has i j = true ↔ b.ilo ≤ i ∧ i ≤ b.ihi ∧ b.jlo ≤ j ∧ j ≤ b.jhi := by
  simp [NBox.has, and_assoc]

theorem onBox_in {b : NBox} (f : ℤ → ℤ → K) {i j : ℤ} (h : b.ilo ≤ i ∧ i ≤ b.ihi ∧ b.jlo ≤ j ∧ j ≤ b.jhi) : onBox b f i j = f i j := by
  unfold onBox; rw [if_pos ((mem_has b i j).mpr h)]

theorem onBox_out {b : NBox} (f : ℤ → ℤ → K) {i j : ℤ} (h : ¬(b.ilo ≤ i ∧ i ≤ b.ihi ∧ b.jlo ≤ j ∧ j ≤ b.jhi)) : onBox b f i j = 0 := by
  unfold onBox; rw [if_neg fun c => h ((mem_has b i j).mp c)]

theorem onBorder_iff (b : NBox) (i j : ℤ) : b.onBorder i j = true ↔ (b.ilo ≤ i ∧ i ≤ b.ihi ∧ b.jlo ≤ j ∧ j ≤ b.jhi) ∧ ¬(b.ilo + 1 ≤ i ∧ i ≤ b.ihi - 1 ∧ b.jlo + 1 ≤ j ∧ j ≤ b.jhi - 1) := by
  unfold NBox.onBorder
  rw [Bool.and_eq_true, Bool.not_eq_true', ← Bool.not_eq_true, mem_has, mem_has]

theorem velocityBox_plain (f cdom : NBox) (bc : Sides LinBC) (h : bc.xlo ≠ .inflow ∧ bc.xhi ≠ .inflow ∧ bc.ylo ≠ .inflow ∧ bc.yhi ≠ .inflow) : velocityBox f cdom bc = f.enclosed := by
  obtain ⟨h1, h2, h3, h4⟩ := h
  unfold velocityBox
  simp [h1, h2, h3, h4]

/-- What one grid computes is the divergence of its own velocity, zero outside. -/
theorem fineRh_eq (dxinv dyinv : K) (f : NBox) (msk : ℤ → ℤ → Bool) (u v : ℤ → ℤ → K)
    (hm : ∀ i j, f.ilo + 1 ≤ i ∧ i ≤ f.ihi - 1 ∧ f.jlo + 1 ≤ j ∧ j ≤ f.jhi - 1 → msk i j = false) (i j : ℤ) :
    fineRh dxinv dyinv f f.enclosed (nodeDivu dxinv dyinv msk u v) u v i j = nodeDiv dxinv dyinv (onBox f.enclosed u) (onBox f.enclosed v) i j := by
  unfold fineRh
  by_cases hb : f.onBorder i j = true
  · simp only [hb, if_true]
    unfold nodeDiv
    ring
  · simp only [hb]
    by_cases hs : f.ilo + 1 ≤ i ∧ i ≤ f.ihi - 1 ∧ f.jlo + 1 ≤ j ∧ j ≤ f.jhi - 1
    · rw [if_neg (by simp), if_pos ((mem_has _ _ _).mpr hs)]
      unfold nodeDivu nodeDiv
      simp only [hm i j hs, Bool.false_eq_true, if_false]
      rw [onBox_in u (by simp only [NBox.enclosed]; omega), onBox_in u (by simp only [NBox.enclosed]; omega), onBox_in u (by simp only [NBox.enclosed]; omega), onBox_in u (by simp only [NBox.enclosed]; omega),
        onBox_in v (by simp only [NBox.enclosed]; omega), onBox_in v (by simp only [NBox.enclosed]; omega), onBox_in v (by simp only [NBox.enclosed]; omega), onBox_in v (by simp only [NBox.enclosed]; omega)]
      ring
    · rw [if_neg (by simp), if_neg fun c => hs ((mem_has _ _ _).mp c)]
      rw [onBorder_iff] at hb
      unfold nodeDiv
      rw [onBox_out u (by simp only [NBox.enclosed]; omega), onBox_out u (by simp only [NBox.enclosed]; omega), onBox_out u (by simp only [NBox.enclosed]; omega), onBox_out u (by simp only [NBox.enclosed]; omega),
        onBox_out v (by simp only [NBox.enclosed]; omega), onBox_out v (by simp only [NBox.enclosed]; omega), onBox_out v (by simp only [NBox.enclosed]; omega), onBox_out v (by simp only [NBox.enclosed]; omega)]
      ring

/-- Divergence and source of the fine level at its nodes. -/
def fineNodal (fdx fdy : K) (u v r : ℤ → ℤ → K) (i j : ℤ) : K := nodeDiv fdx fdy u v i j + nodeRhcc (fun _ _ => false) r i j

theorem fullWeight_local {f g : ℤ → ℤ → K} (i j : ℤ) (h : ∀ a b : ℤ, -1 ≤ a → a ≤ 1 → -1 ≤ b → b ≤ 1 → f (2 * i + a) (2 * j + b) = g (2 * i + a) (2 * j + b)) :
    fullWeight f i j = fullWeight g i j := by
  have e := fun a b h1 h2 h3 h4 => h a b h1 h2 h3 h4
  simp only [fullWeight, nodeRestrict, Bool.false_eq_true, if_false]
  rw [show i * 2 = 2 * i + 0 by ring, show j * 2 = 2 * j + 0 by ring]
  simp only [show ∀ k : ℤ, k + 0 - 1 = k + -1 from fun k => by ring, show ∀ k : ℤ, k + 0 + 1 = k + 1 from fun k => by ring]
  rw [h (-1) (-1) (by omega) (by omega) (by omega) (by omega), h 0 (-1) (by omega) (by omega) (by omega) (by omega), h 1 (-1) (by omega) (by omega) (by omega) (by omega),
    h (-1) 0 (by omega) (by omega) (by omega) (by omega), h 0 0 (by omega) (by omega) (by omega) (by omega), h 1 0 (by omega) (by omega) (by omega) (by omega),
    h (-1) 1 (by omega) (by omega) (by omega) (by omega), h 0 1 (by omega) (by omega) (by omega) (by omega), h 1 1 (by omega) (by omega) (by omega) (by omega)]

theorem fineNodal_local (fdx fdy : K) {u v r u' v' r' : ℤ → ℤ → K} (i j : ℤ)
    (h : ∀ a b : ℤ, i - 1 ≤ a → a ≤ i → j - 1 ≤ b → b ≤ j → u a b = u' a b ∧ v a b = v' a b ∧ r a b = r' a b) : fineNodal fdx fdy u v r i j = fineNodal fdx fdy u' v' r' i j := by
  have h1 := h (i - 1) (j - 1) (by omega) (by omega) (by omega) (by omega)
  have h2 := h i (j - 1) (by omega) (by omega) (by omega) (by omega)
  have h3 := h (i - 1) j (by omega) (by omega) (by omega) (by omega)
  have h4 := h i j (by omega) (by omega) (by omega) (by omega)
  simp only [fineNodal, nodeDiv, nodeRhcc, h1, h2, h3, h4]

theorem fineNodal_zero (fdx fdy : K) (i j : ℤ) : fineNodal fdx fdy (fun _ _ => 0) (fun _ _ => 0) (fun _ _ => 0) i j = 0 := by
  simp [fineNodal, nodeDiv, nodeRhcc]

theorem fullWeight_zero (i j : ℤ) : fullWeight (fun _ _ => (0 : K)) i j = 0 := by simp [fullWeight, nodeRestrict]

/-- Values only matter in the cells around the node. -/
theorem weightNodal_local (fdx fdy : K) {u v r u' v' r' : ℤ → ℤ → K} (i j : ℤ)
    (h : ∀ a b : ℤ, i - 1 ≤ a / 2 → a / 2 ≤ i → j - 1 ≤ b / 2 → b / 2 ≤ j → u a b = u' a b ∧ v a b = v' a b ∧ r a b = r' a b) :
    fullWeight (fineNodal fdx fdy u v r) i j = fullWeight (fineNodal fdx fdy u' v' r') i j :=
  fullWeight_local i j fun a b _ _ _ _ => fineNodal_local fdx fdy _ _ fun p q _ _ _ _ => h p q (by omega) (by omega) (by omega) (by omega)

/-- What one grid adds to a node between the levels. -/
theorem contrib_eq (fdx fdy : K) (c : NBox) (msk : ℤ → ℤ → Bool) (u v r : ℤ → ℤ → K)
    (hm : ∀ i j, 2 * c.ilo + 1 ≤ i ∧ i ≤ 2 * c.ihi - 1 ∧ 2 * c.jlo + 1 ≤ j ∧ j ≤ 2 * c.jhi - 1 → msk i j = false) (i j : ℤ)
    (hin : ¬(c.ilo + 1 ≤ i ∧ i ≤ c.ihi - 1 ∧ c.jlo + 1 ≤ j ∧ j ≤ c.jhi - 1))
    (hb : c.ilo ≤ i ∧ i ≤ c.ihi ∧ c.jlo ≤ j ∧ j ≤ c.jhi → c.ilo < c.ihi → c.jlo < c.jhi → msk (2 * i) (2 * j) = true) :
    fineContrib c.refine2 msk (fineRh fdx fdy c.refine2 c.refine2.enclosed (nodeDivu fdx fdy msk u v) u v) i j + rhccContrib c.refine2 msk (onBox c.refine2.enclosed r) i j
      = fullWeight (fineNodal fdx fdy (onBox c.refine2.enclosed u) (onBox c.refine2.enclosed v) (onBox c.refine2.enclosed r)) i j := by
  have hF : fineRh fdx fdy c.refine2 c.refine2.enclosed (nodeDivu fdx fdy msk u v) u v = nodeDiv fdx fdy (onBox c.refine2.enclosed u) (onBox c.refine2.enclosed v) := by
    funext a b
    exact fineRh_eq fdx fdy c.refine2 msk u v (fun p q h => hm p q h) a b
  rw [hF]
  by_cases hc : (c.ilo ≤ i ∧ i ≤ c.ihi ∧ c.jlo ≤ j ∧ j ≤ c.jhi) ∧ c.ilo < c.ihi ∧ c.jlo < c.jhi
  · have hbd : c.refine2.onBorder (2 * i) (2 * j) = true := (onBorder_iff _ _ _).mpr (by simp only [NBox.refine2]; omega)
    unfold fineContrib rhccContrib
    simp only [hbd, hb hc.1 hc.2.1 hc.2.2, Bool.and_self, if_true, fullWeight, nodeRestrict, Bool.false_eq_true, if_false, fineNodal, nodeRhcc]
    generalize onBox c.refine2.enclosed r = R
    generalize nodeDiv fdx fdy (onBox c.refine2.enclosed u) (onBox c.refine2.enclosed v) = D
    rw [show i * 2 = 2 * i by ring, show j * 2 = 2 * j by ring]
    simp only [add_sub_cancel_right, show ∀ k : ℤ, k - 1 - 1 = k - 2 from fun k => by ring]
    ring
  · have z : ∀ (g : ℤ → ℤ → K) (a b : ℤ), i - 1 ≤ a / 2 → a / 2 ≤ i → j - 1 ≤ b / 2 → b / 2 ≤ j → onBox c.refine2.enclosed g a b = 0 := fun g a b _ _ _ _ =>
      onBox_out g (by simp only [NBox.refine2, NBox.enclosed]; omega)
    rw [weightNodal_local fdx fdy (u' := fun _ _ => 0) (v' := fun _ _ => 0) (r' := fun _ _ => 0) i j fun a b h1 h2 h3 h4 => ⟨z u a b h1 h2 h3 h4, z v a b h1 h2 h3 h4, z r a b h1 h2 h3 h4⟩]
    rw [show fineNodal fdx fdy (fun _ _ => (0 : K)) (fun _ _ => 0) (fun _ _ => 0) = fun _ _ => 0 from funext fun a => funext fun b => fineNodal_zero fdx fdy a b, fullWeight_zero]
    have z1 : fineContrib c.refine2 msk (nodeDiv fdx fdy (onBox c.refine2.enclosed u) (onBox c.refine2.enclosed v)) i j = 0 := by
      have hz : ∀ a b : ℤ, -1 ≤ a → a ≤ 1 → -1 ≤ b → b ≤ 1 → nodeDiv fdx fdy (onBox c.refine2.enclosed u) (onBox c.refine2.enclosed v) (2 * i + a) (2 * j + b) = 0 := by
        intro a b _ _ _ _
        unfold nodeDiv
        rw [z u _ _ (by omega) (by omega) (by omega) (by omega), z u _ _ (by omega) (by omega) (by omega) (by omega), z u _ _ (by omega) (by omega) (by omega) (by omega), z u _ _ (by omega) (by omega) (by omega) (by omega),
          z v _ _ (by omega) (by omega) (by omega) (by omega), z v _ _ (by omega) (by omega) (by omega) (by omega), z v _ _ (by omega) (by omega) (by omega) (by omega), z v _ _ (by omega) (by omega) (by omega) (by omega)]
        ring
      have q := fun a b h1 h2 h3 h4 => hz a b h1 h2 h3 h4
      generalize nodeDiv fdx fdy (onBox c.refine2.enclosed u) (onBox c.refine2.enclosed v) = D at q
      unfold fineContrib
      have q1 := q 0 0 (by omega) (by omega) (by omega) (by omega)
      have q2 := q (-1) 0 (by omega) (by omega) (by omega) (by omega)
      have q3 := q 1 0 (by omega) (by omega) (by omega) (by omega)
      have q4 := q 0 (-1) (by omega) (by omega) (by omega) (by omega)
      have q5 := q 0 1 (by omega) (by omega) (by omega) (by omega)
      have q6 := q (-1) (-1) (by omega) (by omega) (by omega) (by omega)
      have q7 := q 1 (-1) (by omega) (by omega) (by omega) (by omega)
      have q8 := q (-1) 1 (by omega) (by omega) (by omega) (by omega)
      have q9 := q 1 1 (by omega) (by omega) (by omega) (by omega)
      simp only [add_zero, ← sub_eq_add_neg] at q1 q2 q3 q4 q5 q6 q7 q8 q9
      simp only [q1, q2, q3, q4, q5, q6, q7, q8, q9]
      simp
    have z2 : rhccContrib c.refine2 msk (onBox c.refine2.enclosed r) i j = 0 := by
      unfold rhccContrib
      have q := fun a b h1 h2 h3 h4 => z r a b h1 h2 h3 h4
      generalize onBox c.refine2.enclosed r = R at q
      simp only [q (2 * i - 2) (2 * j - 2) (by omega) (by omega) (by omega) (by omega), q (2 * i - 2) (2 * j - 1) (by omega) (by omega) (by omega) (by omega), q (2 * i - 2) (2 * j) (by omega) (by omega) (by omega) (by omega), q (2 * i - 2) (2 * j + 1) (by omega) (by omega) (by omega) (by omega),
        q (2 * i - 1) (2 * j - 2) (by omega) (by omega) (by omega) (by omega), q (2 * i - 1) (2 * j - 1) (by omega) (by omega) (by omega) (by omega), q (2 * i - 1) (2 * j) (by omega) (by omega) (by omega) (by omega), q (2 * i - 1) (2 * j + 1) (by omega) (by omega) (by omega) (by omega),
        q (2 * i) (2 * j - 2) (by omega) (by omega) (by omega) (by omega), q (2 * i) (2 * j - 1) (by omega) (by omega) (by omega) (by omega), q (2 * i) (2 * j) (by omega) (by omega) (by omega) (by omega), q (2 * i) (2 * j + 1) (by omega) (by omega) (by omega) (by omega),
        q (2 * i + 1) (2 * j - 2) (by omega) (by omega) (by omega) (by omega), q (2 * i + 1) (2 * j - 1) (by omega) (by omega) (by omega) (by omega), q (2 * i + 1) (2 * j) (by omega) (by omega) (by omega) (by omega), q (2 * i + 1) (2 * j + 1) (by omega) (by omega) (by omega) (by omega)]
      simp
    rw [z1, z2, add_zero]

/-- The grids together: every cell of the fine level counts once. -/
theorem gridSum_parts (grids : List NBox) (hd : GridsDisjoint grids) (f : ℤ → ℤ → K) (i j : ℤ) : (grids.map fun c => onBox c.refine2.enclosed f i j).sum = finePart grids f i j := by
  classical
  induction grids with
  | nil => simp [finePart, FineCell, UnderFine]
  | cons c cs ih =>
    have hd' := List.pairwise_cons.mp hd
    rw [List.map_cons, List.sum_cons, ih hd'.2]
    unfold finePart
    by_cases hc : c.ilo ≤ i / 2 ∧ i / 2 < c.ihi ∧ c.jlo ≤ j / 2 ∧ j / 2 < c.jhi
    · rw [onBox_in f (by simp only [NBox.refine2, NBox.enclosed]; omega)]
      have h1 : FineCell (c :: cs) i j := ⟨c, by simp, hc⟩
      have h2 : ¬FineCell cs i j := fun ⟨d, hdm, hdc⟩ => hd'.1 d hdm _ _ ⟨hc, hdc⟩
      rw [if_pos h1, if_neg h2, add_zero]
    · rw [onBox_out f (by simp only [NBox.refine2, NBox.enclosed]; omega), zero_add]
      have : FineCell (c :: cs) i j ↔ FineCell cs i j := by
        constructor
        · rintro ⟨d, hdm, hdc⟩
          rcases List.mem_cons.mp hdm with rfl | hm
          · exact absurd hdc hc
          · exact ⟨d, hm, hdc⟩
        · rintro ⟨d, hdm, hdc⟩
          exact ⟨d, List.mem_cons_of_mem _ hdm, hdc⟩
      simp only [this]

theorem weight_sum (fdx fdy : K) (grids : List NBox) (u v r : ℤ → ℤ → K) (i j : ℤ) :
    (grids.map fun c => fullWeight (fineNodal fdx fdy (onBox c.refine2.enclosed u) (onBox c.refine2.enclosed v) (onBox c.refine2.enclosed r)) i j).sum
      = fullWeight (fineNodal fdx fdy (fun a b => (grids.map fun c => onBox c.refine2.enclosed u a b).sum) (fun a b => (grids.map fun c => onBox c.refine2.enclosed v a b).sum)
          (fun a b => (grids.map fun c => onBox c.refine2.enclosed r a b).sum)) i j := by
  induction grids with
  | nil => simp [show (fineNodal fdx fdy (fun _ _ => (0 : K)) (fun _ _ => 0) (fun _ _ => 0)) = fun _ _ => 0 from funext fun a => funext fun b => fineNodal_zero fdx fdy a b, fullWeight_zero]
  | cons c cs ih =>
    simp only [List.map_cons, List.sum_cons]
    rw [ih]
    simp only [fullWeight, nodeRestrict, fineNodal, nodeDiv, nodeRhcc, Bool.false_eq_true, if_false]
    ring

end Fub
