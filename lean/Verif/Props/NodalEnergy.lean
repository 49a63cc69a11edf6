import Verif.Props.NodalWall
import Verif.Spec.NodalEnergy
import Mathlib.Algebra.BigOperators.Ring.Finset
import Mathlib.Algebra.Order.BigOperators.Group.Finset
import Mathlib.Tactic.LinearCombination

/-!
C185: the nodal pressure operator on a domain with walls, Dirichlet and periodic sides.
-/

namespace Fub
variable {K : Type}

theorem ico_succ (lo hi : ℤ) (h : lo ≤ hi) : Finset.Ico lo (hi + 1) = insert hi (Finset.Ico lo hi) := by
  ext x; simp only [Finset.mem_Ico, Finset.mem_insert]; omega

theorem icc_insert (lo hi : ℤ) (h : lo ≤ hi) : Finset.Icc lo hi = insert hi (Finset.Ico lo hi) := by
  ext x; simp only [Finset.mem_Ico, Finset.mem_Icc, Finset.mem_insert]; omega

theorem sum_ico_succ [Field K] (lo hi : ℤ) (h : lo ≤ hi) (f : ℤ → K) : ∑ i ∈ Finset.Ico lo (hi + 1), f i = ∑ i ∈ Finset.Ico lo hi, f i + f hi := by
  rw [ico_succ lo hi h, Finset.sum_insert (by simp), add_comm]

theorem sum_icc [Field K] (lo hi : ℤ) (h : lo ≤ hi) (f : ℤ → K) : ∑ i ∈ Finset.Icc lo hi, f i = ∑ i ∈ Finset.Ico lo hi, f i + f hi := by
  rw [icc_insert lo hi h, Finset.sum_insert (by simp), add_comm]

/-- Summation by parts, also for averages (`c = 1`). -/
theorem sum_parts [Field K] (c : K) (p f : ℤ → K) (lo hi : ℤ) (h : lo ≤ hi) :
    ∑ i ∈ Finset.Ico lo hi, p i * (f i + c * f (i - 1)) = ∑ i ∈ Finset.Ico lo hi, f i * (p i + c * p (i + 1)) + c * (p lo * f (lo - 1)) - c * (p hi * f (hi - 1)) := by
  induction hi, h using Int.le_induction with
  | base => simp
  | succ n hn ih =>
    rw [sum_ico_succ lo n hn, sum_ico_succ lo n hn, ih]
    simp only [add_sub_cancel_right]
    ring

/-- Summation by parts over all nodes, for ends that are periodic, walls or Dirichlet. -/
theorem sum_ends [Field K] (c : K) (per : Prop) [Decidable per] (p f : ℤ → K) (lo hi : ℤ) (h : lo < hi)
    (hp : per → p hi = p lo ∧ p lo * f (lo - 1) = p lo * f (hi - 1)) (hn : ¬ per → p lo * f (lo - 1) = 0 ∧ p hi * f hi = 0) :
    ∑ i ∈ Finset.Icc lo hi, (if per ∧ i = hi then 0 else p i * (f i + c * f (i - 1))) = ∑ i ∈ Finset.Ico lo hi, f i * (p i + c * p (i + 1)) := by
  rw [sum_icc lo hi h.le]
  have e : ∑ i ∈ Finset.Ico lo hi, (if per ∧ i = hi then 0 else p i * (f i + c * f (i - 1))) = ∑ i ∈ Finset.Ico lo hi, p i * (f i + c * f (i - 1)) := by
    refine Finset.sum_congr rfl fun i hi' => ?_
    rw [Finset.mem_Ico] at hi'
    rw [if_neg (by omega)]
  rw [e, sum_parts c p f lo hi h.le]
  by_cases hper : per
  · obtain ⟨h1, h2⟩ := hp hper
    rw [if_pos ⟨hper, rfl⟩, h1, h2]
    ring
  · obtain ⟨h1, h2⟩ := hn hper
    rw [if_neg (fun h => hper h.1), h1]
    linear_combination h2

/-- Summation by parts in two dimensions. -/
theorem sum_ends2 [Field K] (c1 c2 : K) (d : NBox) (hx : d.ilo < d.ihi) (hy : d.jlo < d.jhi) (px py : Prop) [Decidable px] [Decidable py] (p u : ℤ → ℤ → K)
    (hpx : px → (∀ j, d.jlo ≤ j → j ≤ d.jhi → p d.ihi j = p d.ilo j) ∧ ∀ b, d.jlo - 1 ≤ b → b ≤ d.jhi → u (d.ilo - 1) b = u (d.ihi - 1) b)
    (hnx : ¬ px → ∀ j b, d.jlo ≤ j → j ≤ d.jhi → (b = j ∨ b = j - 1) → p d.ilo j * u (d.ilo - 1) b = 0 ∧ p d.ihi j * u d.ihi b = 0)
    (hpy : py → (∀ i, d.ilo ≤ i → i ≤ d.ihi → p i d.jhi = p i d.jlo) ∧ ∀ a, d.ilo ≤ a → a < d.ihi → u a (d.jlo - 1) = u a (d.jhi - 1))
    (hny : ¬ py → ∀ i a, d.ilo ≤ a → a < d.ihi → (i = a ∨ i = a + 1) → p i d.jlo * u a (d.jlo - 1) = 0 ∧ p i d.jhi * u a d.jhi = 0) :
    nodeSum d (fun i j => if (px ∧ i = d.ihi) ∨ (py ∧ j = d.jhi) then 0 else p i j * (u i j + c2 * u i (j - 1) + c1 * (u (i - 1) j + c2 * u (i - 1) (j - 1)))) =
      cellSum d (fun i j => u i j * (p i j + c1 * p (i + 1) j + c2 * (p i (j + 1) + c1 * p (i + 1) (j + 1)))) := by
  unfold nodeSum cellSum
  rw [Finset.sum_comm]
  have s1 : ∀ j ∈ Finset.Icc d.jlo d.jhi,
      ∑ i ∈ Finset.Icc d.ilo d.ihi, (if (px ∧ i = d.ihi) ∨ (py ∧ j = d.jhi) then 0 else p i j * (u i j + c2 * u i (j - 1) + c1 * (u (i - 1) j + c2 * u (i - 1) (j - 1)))) =
      ∑ i ∈ Finset.Ico d.ilo d.ihi, (if py ∧ j = d.jhi then 0 else (p i j + c1 * p (i + 1) j) * (u i j + c2 * u i (j - 1))) := by
    intro j hj
    rw [Finset.mem_Icc] at hj
    by_cases hq : py ∧ j = d.jhi
    · simp [hq]
    · simp only [hq, or_false, if_false]
      rw [sum_ends c1 px (fun i => p i j) (fun i => u i j + c2 * u i (j - 1)) d.ilo d.ihi hx]
      · exact Finset.sum_congr rfl fun i _ => by ring
      · intro h
        refine ⟨(hpx h).1 j hj.1 hj.2, ?_⟩
        rw [(hpx h).2 j (by omega) (by omega), (hpx h).2 (j - 1) (by omega) (by omega)]
      · intro h
        have h1 := hnx h j j hj.1 hj.2 (.inl rfl)
        have h2 := hnx h j (j - 1) hj.1 hj.2 (.inr rfl)
        exact ⟨by linear_combination h1.1 + c2 * h2.1, by linear_combination h1.2 + c2 * h2.2⟩
  rw [Finset.sum_congr rfl s1, Finset.sum_comm]
  refine Finset.sum_congr rfl fun i hi => ?_
  rw [Finset.mem_Ico] at hi
  rw [sum_ends c2 py (fun j => p i j + c1 * p (i + 1) j) (fun j => u i j) d.jlo d.jhi hy]
  · intro h
    refine ⟨?_, by rw [(hpy h).2 i hi.1 hi.2]⟩
    show p i d.jhi + c1 * p (i + 1) d.jhi = p i d.jlo + c1 * p (i + 1) d.jlo
    rw [(hpy h).1 i hi.1 (by omega), (hpy h).1 (i + 1) (by omega) (by omega)]
  · intro h
    have h1 := hny h i i hi.1 hi.2 (.inl rfl)
    have h2 := hny h (i + 1) i hi.1 hi.2 (.inr rfl)
    exact ⟨by linear_combination h1.1 + c1 * h2.1, by linear_combination h1.2 + c1 * h2.2⟩

/-- A side of the domain is periodic, a wall or Dirichlet. -/
theorem bc_cases (b : LinBC) : b = .periodic ∨ b.isWall = true ∨ b = .dirichlet := by cases b <;> decide

/-- **C185 (divergence and gradient).** On a domain with any combination of periodic sides, walls and Dirichlet sides, the right-hand side for a velocity field is minus the
adjoint of the gradient: weighted with the inner product of the solver, and tested with any nodal field that vanishes on the masked and on the Dirichlet nodes. -/
theorem wall_green [Field K] [CharZero K] (d : NBox) (hx : d.ilo < d.ihi) (hy : d.jlo < d.jhi) (bc : Sides LinBC) (hbc : bc.Paired) (old u v psi : ℤ → ℤ → K)
    (msk : ℤ → ℤ → Bool) (dxinv dyinv : K) (hu : GhostFilled d bc u) (hv : GhostFilled d bc v) (hp : PeriodicField d bc psi)
    (hz : ZeroOnDirichlet d bc psi) (hm : ∀ i j, d.Mem i j → msk i j = true → psi i j = 0) :
    nodeSum d (fun i j => setDotMask d d bc (ownMask d bc) old i j * (psi i j * compRhs dxinv dyinv d d bc msk u v i j)) =
      -cellSum d (fun i j => u i j * cellGradX dxinv psi i j + v i j * cellGradY dyinv psi i j) := by
  have h2 : (2 : K) ≠ 0 := two_ne_zero
  have ht : d.Tile d := ⟨⟨le_refl _, le_refl _, le_refl _, le_refl _⟩, hx.le, hy.le⟩
  have pt : ∀ i ∈ Finset.Icc d.ilo d.ihi, ∀ j ∈ Finset.Icc d.jlo d.jhi,
      setDotMask d d bc (ownMask d bc) old i j * (psi i j * compRhs dxinv dyinv d d bc msk u v i j) =
      dxinv / 2 * (if (bc.xlo = .periodic ∧ i = d.ihi) ∨ (bc.ylo = .periodic ∧ j = d.jhi) then 0 else
        psi i j * (u i j + 1 * u i (j - 1) + (-1) * (u (i - 1) j + 1 * u (i - 1) (j - 1)))) +
      dyinv / 2 * (if (bc.xlo = .periodic ∧ i = d.ihi) ∨ (bc.ylo = .periodic ∧ j = d.jhi) then 0 else
        psi i j * (v i j + (-1) * v i (j - 1) + 1 * (v (i - 1) j + (-1) * v (i - 1) (j - 1)))) := by
    intro i hi j hj
    rw [Finset.mem_Icc] at hi hj
    have hmem : d.Mem i j := ⟨hi.1, hi.2, hj.1, hj.2⟩
    rw [(dot_mask d d ht bc _ old i j).1 hmem]
    unfold compRhs
    rw [(scale_sides 2 d d ht bc _ i j).1 hmem, node_divergence]
    have e : ∀ n : ℕ, ((1 : K) / 2) ^ n * 2 ^ n = 1 := fun n => by rw [← mul_pow]; norm_num
    unfold ownMask
    by_cases ho : (bc.xlo = .periodic ∧ i = d.ihi) ∨ (bc.ylo = .periodic ∧ j = d.jhi)
    · simp [ho]
    · simp only [ho, if_false, Int.cast_one]
      cases hmi : msk i j with
      | true => simp [hm i j hmem hmi]
      | false =>
        simp only [Bool.false_eq_true, if_false]
        unfold nodeDiv
        linear_combination (psi i j * (((u i (j - 1) + u i j) / 2 - (u (i - 1) (j - 1) + u (i - 1) j) / 2) * dxinv
          + ((v (i - 1) j + v i j) / 2 - (v (i - 1) (j - 1) + v i (j - 1)) / 2) * dyinv)) * e (wallCount d bc i j)
  have hn : nodeSum d (fun i j => setDotMask d d bc (ownMask d bc) old i j * (psi i j * compRhs dxinv dyinv d d bc msk u v i j)) =
      dxinv / 2 * nodeSum d (fun i j => if (bc.xlo = .periodic ∧ i = d.ihi) ∨ (bc.ylo = .periodic ∧ j = d.jhi) then 0 else
        psi i j * (u i j + 1 * u i (j - 1) + (-1) * (u (i - 1) j + 1 * u (i - 1) (j - 1)))) +
      dyinv / 2 * nodeSum d (fun i j => if (bc.xlo = .periodic ∧ i = d.ihi) ∨ (bc.ylo = .periodic ∧ j = d.jhi) then 0 else
        psi i j * (v i j + (-1) * v i (j - 1) + 1 * (v (i - 1) j + (-1) * v (i - 1) (j - 1)))) := by
    unfold nodeSum
    rw [Finset.mul_sum, Finset.mul_sum, ← Finset.sum_add_distrib]
    refine Finset.sum_congr rfl fun i hi => ?_
    rw [Finset.mul_sum, Finset.mul_sum, ← Finset.sum_add_distrib]
    exact Finset.sum_congr rfl fun j hj => pt i hi j hj
  have ends : ∀ (c1 c2 : K) (w : ℤ → ℤ → K), GhostFilled d bc w →
      nodeSum d (fun i j => if (bc.xlo = .periodic ∧ i = d.ihi) ∨ (bc.ylo = .periodic ∧ j = d.jhi) then 0 else
        psi i j * (w i j + c2 * w i (j - 1) + c1 * (w (i - 1) j + c2 * w (i - 1) (j - 1)))) =
      cellSum d (fun i j => w i j * (psi i j + c1 * psi (i + 1) j + c2 * (psi i (j + 1) + c1 * psi (i + 1) (j + 1)))) := by
    intro c1 c2 w hw
    obtain ⟨g1, g2, g3⟩ := hw
    refine sum_ends2 c1 c2 d hx hy _ _ psi w ?_ ?_ ?_ ?_
    · intro h
      refine ⟨fun j _ _ => ?_, g1 h⟩
      have := hp.1 h d.ilo j
      rwa [show d.ilo + (d.ihi - d.ilo) = d.ihi by omega] at this
    · intro h j b h1 h2 h3
      refine ⟨?_, ?_⟩
      · rcases bc_cases bc.xlo with e | e | e
        · exact absurd e h
        · rw [← g3, wallZero, if_pos (.inl ⟨by omega, e⟩), mul_zero]
        · rw [hz d.ilo j ⟨le_refl _, hx.le, h1, h2⟩ (.inl ⟨e, rfl⟩), zero_mul]
      · rcases bc_cases bc.xhi with e | e | e
        · exact absurd (hbc.1.2 e) h
        · rw [← g3, wallZero, if_pos (.inr (.inl ⟨le_refl _, e⟩)), mul_zero]
        · rw [hz d.ihi j ⟨hx.le, le_refl _, h1, h2⟩ (.inr (.inl ⟨e, rfl⟩)), zero_mul]
    · intro h
      refine ⟨fun i _ _ => ?_, fun a h1 h2 => g2 h a (by omega) (by omega)⟩
      have := hp.2 h i d.jlo
      rwa [show d.jlo + (d.jhi - d.jlo) = d.jhi by omega] at this
    · intro h i a h1 h2 h3
      refine ⟨?_, ?_⟩
      · rcases bc_cases bc.ylo with e | e | e
        · exact absurd e h
        · rw [← g3, wallZero, if_pos (.inr (.inr (.inl ⟨by omega, e⟩))), mul_zero]
        · rw [hz i d.jlo ⟨by omega, by omega, le_refl _, hy.le⟩ (.inr (.inr (.inl ⟨e, rfl⟩))), zero_mul]
      · rcases bc_cases bc.yhi with e | e | e
        · exact absurd (hbc.2.2 e) h
        · rw [← g3, wallZero, if_pos (.inr (.inr (.inr ⟨le_refl _, e⟩))), mul_zero]
        · rw [hz i d.jhi ⟨by omega, by omega, hy.le, le_refl _⟩ (.inr (.inr (.inr ⟨e, rfl⟩))), zero_mul]
  rw [hn, ends (-1) 1 u hu, ends 1 (-1) v hv]
  unfold cellSum
  rw [Finset.mul_sum, Finset.mul_sum, ← Finset.sum_add_distrib, ← Finset.sum_neg_distrib]
  refine Finset.sum_congr rfl fun i _ => ?_
  rw [Finset.mul_sum, Finset.mul_sum, ← Finset.sum_add_distrib, ← Finset.sum_neg_distrib]
  refine Finset.sum_congr rfl fun j _ => ?_
  unfold cellGradX cellGradY
  ring

/-- The ghost values that the solver fills. -/
theorem nd_ghosts (d : NBox) (hx : d.ilo < d.ihi) (hy : d.jlo < d.jhi) (bc : Sides LinBC) (phi : ℤ → ℤ → K) (a b : ℤ) (h : d.grow1.Mem a b) :
    applybcNd d d bc phi a b = phi (mirrorIdx 1 d.ilo d.ihi bc.xlo.isWall bc.xhi.isWall a) (mirrorIdx 1 d.jlo d.jhi bc.ylo.isWall bc.yhi.isWall b) :=
  (bcDoit_spec 1 (by norm_num) d d ⟨le_refl _, le_refl _, le_refl _, le_refl _⟩ (by omega) (by omega) _ phi a b).1 h

theorem cc_ghosts (d : NBox) (hx : d.ilo < d.ihi) (hy : d.jlo < d.jhi) (bc : Sides LinBC) (sig : ℤ → ℤ → K) (a b : ℤ) (h : d.cells.grow1.Mem a b) :
    fillbcCc d.cells d.cells bc sig a b = sig (mirrorIdx 0 d.ilo (d.ihi - 1) (bc.xlo != .periodic) (bc.xhi != .periodic) a)
      (mirrorIdx 0 d.jlo (d.jhi - 1) (bc.ylo != .periodic) (bc.yhi != .periodic) b) :=
  (bcDoit_spec 0 (le_refl _) d.cells d.cells ⟨le_refl _, le_refl _, le_refl _, le_refl _⟩ (by simp only [NBox.cells]; omega) (by simp only [NBox.cells]; omega) _ sig a b).1 h

theorem mirror_off (off lo hi i : ℤ) : mirrorIdx off lo hi false false i = i := by simp [mirrorIdx]

theorem mirror_mid (off lo hi : ℤ) (f g : Bool) (i : ℤ) (h1 : lo ≤ i) (h2 : i ≤ hi) : mirrorIdx off lo hi f g i = i := by
  unfold mirrorIdx; rw [if_neg (by omega), if_neg (by omega)]

/-- The gradient flux of the solver has filled ghost cells once the ghost values beyond walls are dropped. -/
theorem flux_ghosts [Field K] (d : NBox) (hx : d.ilo < d.ihi) (hy : d.jlo < d.jhi) (bc : Sides LinBC) (hbc : bc.Paired) (sig phi : ℤ → ℤ → K) (dxinv dyinv : K)
    (hs : PeriodicField d bc sig) (hp : PeriodicField d bc phi) :
    GhostFilled d bc (wallZero d bc fun i j => fillbcCc d.cells d.cells bc sig i j * cellGradX dxinv (applybcNd d d bc phi) i j) ∧
    GhostFilled d bc (wallZero d bc fun i j => fillbcCc d.cells d.cells bc sig i j * cellGradY dyinv (applybcNd d d bc phi) i j) := by
  have idem : ∀ (w : ℤ → ℤ → K) a b, wallZero d bc (wallZero d bc w) a b = wallZero d bc w a b := by
    intro w a b; unfold wallZero; split <;> rfl
  -- periodicity of the filled fields
  have px : bc.xlo = .periodic → ∀ a b, d.ilo - 1 ≤ a → a ≤ d.ilo → d.jlo - 1 ≤ b → b ≤ d.jhi + 1 →
      applybcNd d d bc phi (a + (d.ihi - d.ilo)) b = applybcNd d d bc phi a b := by
    intro h a b h1 h2 h3 h4
    have w1 : bc.xlo.isWall = false := by rw [h]; rfl
    have w2 : bc.xhi.isWall = false := by rw [hbc.1.1 h]; rfl
    rw [nd_ghosts d hx hy bc phi _ _ ⟨by simp only [NBox.grow1]; omega, by simp only [NBox.grow1]; omega, by simp only [NBox.grow1]; omega, by simp only [NBox.grow1]; omega⟩,
      nd_ghosts d hx hy bc phi _ _ ⟨by simp only [NBox.grow1]; omega, by simp only [NBox.grow1]; omega, by simp only [NBox.grow1]; omega, by simp only [NBox.grow1]; omega⟩,
      w1, w2, mirror_off, mirror_off, hp.1 h]
  have py : bc.ylo = .periodic → ∀ a b, d.ilo - 1 ≤ a → a ≤ d.ihi + 1 → d.jlo - 1 ≤ b → b ≤ d.jlo →
      applybcNd d d bc phi a (b + (d.jhi - d.jlo)) = applybcNd d d bc phi a b := by
    intro h a b h1 h2 h3 h4
    have w1 : bc.ylo.isWall = false := by rw [h]; rfl
    have w2 : bc.yhi.isWall = false := by rw [hbc.2.1 h]; rfl
    rw [nd_ghosts d hx hy bc phi _ _ ⟨by simp only [NBox.grow1]; omega, by simp only [NBox.grow1]; omega, by simp only [NBox.grow1]; omega, by simp only [NBox.grow1]; omega⟩,
      nd_ghosts d hx hy bc phi _ _ ⟨by simp only [NBox.grow1]; omega, by simp only [NBox.grow1]; omega, by simp only [NBox.grow1]; omega, by simp only [NBox.grow1]; omega⟩,
      w1, w2, mirror_off, mirror_off, hp.2 h]
  have sx : bc.xlo = .periodic → ∀ b, d.jlo - 1 ≤ b → b ≤ d.jhi → fillbcCc d.cells d.cells bc sig (d.ilo - 1) b = fillbcCc d.cells d.cells bc sig (d.ihi - 1) b := by
    intro h b h3 h4
    have w1 : (bc.xlo != .periodic) = false := by rw [h]; rfl
    have w2 : (bc.xhi != .periodic) = false := by rw [hbc.1.1 h]; rfl
    rw [cc_ghosts d hx hy bc sig _ _ ⟨by simp only [NBox.grow1, NBox.cells]; omega, by simp only [NBox.grow1, NBox.cells]; omega, by simp only [NBox.grow1, NBox.cells]; omega, by simp only [NBox.grow1, NBox.cells]; omega⟩,
      cc_ghosts d hx hy bc sig _ _ ⟨by simp only [NBox.grow1, NBox.cells]; omega, by simp only [NBox.grow1, NBox.cells]; omega, by simp only [NBox.grow1, NBox.cells]; omega, by simp only [NBox.grow1, NBox.cells]; omega⟩,
      w1, w2, mirror_off, mirror_off, ← hs.1 h (d.ilo - 1)]
    congr 1; omega
  have sy : bc.ylo = .periodic → ∀ a, d.ilo - 1 ≤ a → a ≤ d.ihi → fillbcCc d.cells d.cells bc sig a (d.jlo - 1) = fillbcCc d.cells d.cells bc sig a (d.jhi - 1) := by
    intro h a h3 h4
    have w1 : (bc.ylo != .periodic) = false := by rw [h]; rfl
    have w2 : (bc.yhi != .periodic) = false := by rw [hbc.2.1 h]; rfl
    rw [cc_ghosts d hx hy bc sig _ _ ⟨by simp only [NBox.grow1, NBox.cells]; omega, by simp only [NBox.grow1, NBox.cells]; omega, by simp only [NBox.grow1, NBox.cells]; omega, by simp only [NBox.grow1, NBox.cells]; omega⟩,
      cc_ghosts d hx hy bc sig _ _ ⟨by simp only [NBox.grow1, NBox.cells]; omega, by simp only [NBox.grow1, NBox.cells]; omega, by simp only [NBox.grow1, NBox.cells]; omega, by simp only [NBox.grow1, NBox.cells]; omega⟩,
      w1, w2, mirror_off, mirror_off, ← hs.2 h _ (d.jlo - 1)]
    congr 1; omega
  have zx : bc.xlo = .periodic → ∀ (w w' : ℤ → ℤ → K) b, w (d.ilo - 1) b = w (d.ihi - 1) b → wallZero d bc w (d.ilo - 1) b = wallZero d bc w (d.ihi - 1) b := by
    intro h w _ b e
    have w1 : bc.xlo.isWall = false := by rw [h]; rfl
    have w2 : bc.xhi.isWall = false := by rw [hbc.1.1 h]; rfl
    unfold wallZero
    simp only [w1, w2, Bool.false_eq_true, and_false, false_or, e]
  have zy : bc.ylo = .periodic → ∀ (w w' : ℤ → ℤ → K) a, w a (d.jlo - 1) = w a (d.jhi - 1) → wallZero d bc w a (d.jlo - 1) = wallZero d bc w a (d.jhi - 1) := by
    intro h w _ b e
    have w1 : bc.ylo.isWall = false := by rw [h]; rfl
    have w2 : bc.yhi.isWall = false := by rw [hbc.2.1 h]; rfl
    unfold wallZero
    simp only [w1, w2, Bool.false_eq_true, and_false, or_false, e]
  have ex1 : d.ilo - 1 + (d.ihi - d.ilo) = d.ihi - 1 := by omega
  have ex2 : d.ilo + (d.ihi - d.ilo) = d.ihi := by omega
  have ey1 : d.jlo - 1 + (d.jhi - d.jlo) = d.jhi - 1 := by omega
  have ey2 : d.jlo + (d.jhi - d.jlo) = d.jhi := by omega
  have xx : bc.xlo = .periodic → ∀ b, d.jlo - 1 ≤ b → b ≤ d.jhi + 1 → applybcNd d d bc phi (d.ilo - 1) b = applybcNd d d bc phi (d.ihi - 1) b ∧
      applybcNd d d bc phi d.ilo b = applybcNd d d bc phi d.ihi b := by
    intro h b h1 h2
    have e1 := px h (d.ilo - 1) b (by omega) (by omega) h1 h2
    have e2 := px h d.ilo b (by omega) (by omega) h1 h2
    rw [ex1] at e1; rw [ex2] at e2
    exact ⟨e1.symm, e2.symm⟩
  have yy : bc.ylo = .periodic → ∀ a, d.ilo - 1 ≤ a → a ≤ d.ihi + 1 → applybcNd d d bc phi a (d.jlo - 1) = applybcNd d d bc phi a (d.jhi - 1) ∧
      applybcNd d d bc phi a d.jlo = applybcNd d d bc phi a d.jhi := by
    intro h a h1 h2
    have e1 := py h a (d.jlo - 1) h1 h2 (by omega) (by omega)
    have e2 := py h a d.jlo h1 h2 (by omega) (by omega)
    rw [ey1] at e1; rw [ey2] at e2
    exact ⟨e1.symm, e2.symm⟩
  refine ⟨⟨fun h b h1 h2 => zx h _ (fun _ _ => 0) b ?_, fun h a h1 h2 => zy h _ (fun _ _ => 0) a ?_, idem _⟩,
    ⟨fun h b h1 h2 => zx h _ (fun _ _ => 0) b ?_, fun h a h1 h2 => zy h _ (fun _ _ => 0) a ?_, idem _⟩⟩
  · obtain ⟨p1, p2⟩ := xx h b h1 (by omega)
    obtain ⟨p3, p4⟩ := xx h (b + 1) (by omega) (by omega)
    simp only [cellGradX, sub_add_cancel, sx h b h1 h2, p1, p2, p3, p4]
  · obtain ⟨p1, p2⟩ := yy h a h1 (by omega)
    obtain ⟨p3, p4⟩ := yy h (a + 1) (by omega) (by omega)
    simp only [cellGradX, sub_add_cancel, sy h a h1 h2, p1, p2, p3, p4]
  · obtain ⟨p1, p2⟩ := xx h b h1 (by omega)
    obtain ⟨p3, p4⟩ := xx h (b + 1) (by omega) (by omega)
    simp only [cellGradY, sub_add_cancel, sx h b h1 h2, p1, p2, p3, p4]
  · obtain ⟨p1, p2⟩ := yy h a h1 (by omega)
    obtain ⟨p3, p4⟩ := yy h (a + 1) (by omega) (by omega)
    simp only [cellGradY, sub_add_cancel, sy h a h1 h2, p1, p2, p3, p4]

/-- **C185 (energy).** On a domain with any combination of periodic sides, walls and Dirichlet sides, the operator with the ghost values of the solver satisfies the
energy identity: tested with any nodal field that vanishes on the Dirichlet nodes it gives the diagonal part minus the weighted product of the gradients in the cells. -/
theorem wall_energy [Field K] [CharZero K] (d : NBox) (hx : d.ilo < d.ihi) (hy : d.jlo < d.jhi) (bc : Sides LinBC) (hbc : bc.Paired) (old sig alp phi psi : ℤ → ℤ → K)
    (msk : ℤ → ℤ → Bool) (dxinv dyinv : K) (hs : PeriodicField d bc sig) (hf : PeriodicField d bc phi) (hp : PeriodicField d bc psi) (hz : ZeroOnDirichlet d bc psi)
    (hm : ∀ i j, d.Mem i j → (msk i j = true ↔ OnDirichlet d bc i j)) :
    nodeSum d (fun i j => setDotMask d d bc (ownMask d bc) old i j *
        (psi i j * helmApply ⟨fillbcCc d.cells d.cells bc sig, fun _ _ => 0, fun _ _ => 0, alp, dxinv, dyinv⟩ msk (applybcNd d d bc phi) i j)) =
      nodeSum d (fun i j => setDotMask d d bc (ownMask d bc) old i j * (alp i j * phi i j * psi i j)) -
        cellSum d (fun i j => sig i j * (cellGradX dxinv phi i j * cellGradX dxinv psi i j + cellGradY dyinv phi i j * cellGradY dyinv psi i j)) := by
  have ht : d.Tile d := ⟨⟨le_refl _, le_refl _, le_refl _, le_refl _⟩, hx.le, hy.le⟩
  obtain ⟨gu, gv⟩ := flux_ghosts d hx hy bc hbc sig phi dxinv dyinv hs hf
  have key := wall_green d hx hy bc hbc old _ _ psi msk dxinv dyinv gu gv hp hz (fun i j h1 h2 => hz i j h1 ((hm i j h1).1 h2))
  have nd : ∀ a b, d.Mem a b → applybcNd d d bc phi a b = phi a b := by
    intro a b ⟨h1, h2, h3, h4⟩
    rw [nd_ghosts d hx hy bc phi a b ⟨by simp only [NBox.grow1]; omega, by simp only [NBox.grow1]; omega, by simp only [NBox.grow1]; omega, by simp only [NBox.grow1]; omega⟩,
      mirror_mid _ _ _ _ _ _ h1 h2, mirror_mid _ _ _ _ _ _ h3 h4]
  have cc : ∀ a b, d.ilo ≤ a → a < d.ihi → d.jlo ≤ b → b < d.jhi → fillbcCc d.cells d.cells bc sig a b = sig a b := by
    intro a b h1 h2 h3 h4
    rw [cc_ghosts d hx hy bc sig a b ⟨by simp only [NBox.grow1, NBox.cells]; omega, by simp only [NBox.grow1, NBox.cells]; omega, by simp only [NBox.grow1, NBox.cells]; omega, by simp only [NBox.grow1, NBox.cells]; omega⟩,
      mirror_mid _ _ _ _ _ _ h1 (by omega), mirror_mid _ _ _ _ _ _ h3 (by omega)]
  have e1 : cellSum d (fun i j => wallZero d bc (fun i j => fillbcCc d.cells d.cells bc sig i j * cellGradX dxinv (applybcNd d d bc phi) i j) i j * cellGradX dxinv psi i j +
        wallZero d bc (fun i j => fillbcCc d.cells d.cells bc sig i j * cellGradY dyinv (applybcNd d d bc phi) i j) i j * cellGradY dyinv psi i j) =
      cellSum d (fun i j => sig i j * (cellGradX dxinv phi i j * cellGradX dxinv psi i j + cellGradY dyinv phi i j * cellGradY dyinv psi i j)) := by
    unfold cellSum
    refine Finset.sum_congr rfl fun i hi => Finset.sum_congr rfl fun j hj => ?_
    rw [Finset.mem_Ico] at hi hj
    have hw : ∀ w : ℤ → ℤ → K, wallZero d bc w i j = w i j := by
      intro w
      unfold wallZero
      rw [if_neg (by omega)]
    beta_reduce
    rw [hw, hw, cc i j hi.1 hi.2 hj.1 hj.2]
    unfold cellGradX cellGradY
    rw [nd i j ⟨by omega, by omega, by omega, by omega⟩, nd (i + 1) j ⟨by omega, by omega, by omega, by omega⟩, nd i (j + 1) ⟨by omega, by omega, by omega, by omega⟩,
      nd (i + 1) (j + 1) ⟨by omega, by omega, by omega, by omega⟩]
    ring
  rw [e1] at key
  rw [sub_eq_add_neg, ← key]
  unfold nodeSum
  rw [← Finset.sum_add_distrib]
  refine Finset.sum_congr rfl fun i hi => ?_
  rw [← Finset.sum_add_distrib]
  refine Finset.sum_congr rfl fun j hj => ?_
  rw [Finset.mem_Icc] at hi hj
  have hmem : d.Mem i j := ⟨hi.1, hi.2, hj.1, hj.2⟩
  have pr := wall_projection d d d hx hy ⟨le_refl _, le_refl _, le_refl _, le_refl _⟩ ht bc sig phi msk dxinv dyinv (fun i j h h' => (hm i j h).2 h') i j hmem hmem
  simp only at pr
  beta_reduce
  rw [pr, helm_apply_flux, helm_apply_flux]
  cases hmi : msk i j with
  | true =>
    rw [hz i j hmem ((hm i j hmem).1 hmi)]
    ring
  | false =>
    simp only [Bool.false_eq_true, if_false, nd i j hmem, zero_mul, add_zero]
    have fx : helmFluxX ⟨fillbcCc d.cells d.cells bc sig, fun _ _ => 0, fun _ _ => 0, alp, dxinv, dyinv⟩ (applybcNd d d bc phi) =
        helmFluxX ⟨fillbcCc d.cells d.cells bc sig, fun _ _ => 0, fun _ _ => 0, fun _ _ => 0, dxinv, dyinv⟩ (applybcNd d d bc phi) := rfl
    have fy : helmFluxY ⟨fillbcCc d.cells d.cells bc sig, fun _ _ => 0, fun _ _ => 0, alp, dxinv, dyinv⟩ (applybcNd d d bc phi) =
        helmFluxY ⟨fillbcCc d.cells d.cells bc sig, fun _ _ => 0, fun _ _ => 0, fun _ _ => 0, dxinv, dyinv⟩ (applybcNd d d bc phi) := rfl
    rw [fx, fy]
    ring

/-- **C185 (symmetry).** The operator is symmetric in the inner product of the solver on fields that vanish on the Dirichlet nodes. -/
theorem wall_symmetric [Field K] [CharZero K] (d : NBox) (hx : d.ilo < d.ihi) (hy : d.jlo < d.jhi) (bc : Sides LinBC) (hbc : bc.Paired) (old sig alp phi psi : ℤ → ℤ → K)
    (msk : ℤ → ℤ → Bool) (dxinv dyinv : K) (hs : PeriodicField d bc sig) (hf : PeriodicField d bc phi) (hp : PeriodicField d bc psi) (hy1 : ZeroOnDirichlet d bc phi)
    (hz : ZeroOnDirichlet d bc psi) (hm : ∀ i j, d.Mem i j → (msk i j = true ↔ OnDirichlet d bc i j)) :
    nodeSum d (fun i j => setDotMask d d bc (ownMask d bc) old i j *
        (psi i j * helmApply ⟨fillbcCc d.cells d.cells bc sig, fun _ _ => 0, fun _ _ => 0, alp, dxinv, dyinv⟩ msk (applybcNd d d bc phi) i j)) =
      nodeSum d (fun i j => setDotMask d d bc (ownMask d bc) old i j *
        (phi i j * helmApply ⟨fillbcCc d.cells d.cells bc sig, fun _ _ => 0, fun _ _ => 0, alp, dxinv, dyinv⟩ msk (applybcNd d d bc psi) i j)) := by
  rw [wall_energy d hx hy bc hbc old sig alp phi psi msk dxinv dyinv hs hf hp hz hm, wall_energy d hx hy bc hbc old sig alp psi phi msk dxinv dyinv hs hp hf hy1 hm]
  unfold nodeSum cellSum
  congr 1
  · exact Finset.sum_congr rfl fun i _ => Finset.sum_congr rfl fun j _ => by ring
  · exact Finset.sum_congr rfl fun i _ => Finset.sum_congr rfl fun j _ => by ring

/-- **C185 (compatibility).** Without Dirichlet sides the weighted sum of the right-hand side over all nodes is zero for every velocity field whose ghost values are zero beyond
walls: the singular system is solvable. -/
theorem wall_compatible [Field K] [CharZero K] (d : NBox) (hx : d.ilo < d.ihi) (hy : d.jlo < d.jhi) (bc : Sides LinBC) (hbc : bc.Paired)
    (hd : bc.xlo ≠ .dirichlet ∧ bc.xhi ≠ .dirichlet ∧ bc.ylo ≠ .dirichlet ∧ bc.yhi ≠ .dirichlet) (old u v : ℤ → ℤ → K) (dxinv dyinv : K)
    (hu : GhostFilled d bc u) (hv : GhostFilled d bc v) :
    nodeSum d (fun i j => setDotMask d d bc (ownMask d bc) old i j * compRhs dxinv dyinv d d bc (fun _ _ => false) u v i j) = 0 := by
  have key := wall_green d hx hy bc hbc old u v (fun _ _ => 1) (fun _ _ => false) dxinv dyinv hu hv ⟨fun _ _ _ => rfl, fun _ _ _ => rfl⟩
    (fun i j _ h => by rcases h with h | h | h | h <;> simp_all) (fun i j _ h => by simp at h)
  simp only [one_mul] at key
  rw [key]
  unfold cellSum cellGradX cellGradY
  simp

/-- **C185 (uniqueness).** With a negative diagonal and nonnegative coefficients the pressure equation has at most one solution for each right-hand side and each choice of the
Dirichlet values, on a domain with any combination of periodic sides, walls and Dirichlet sides. -/
theorem wall_unique [Field K] [LinearOrder K] [IsStrictOrderedRing K] (d : NBox) (hx : d.ilo < d.ihi) (hy : d.jlo < d.jhi) (bc : Sides LinBC) (hbc : bc.Paired)
    (sig alp p q : ℤ → ℤ → K) (msk : ℤ → ℤ → Bool) (dxinv dyinv : K) (hs : PeriodicField d bc sig) (hp : PeriodicField d bc p) (hq : PeriodicField d bc q)
    (hm : ∀ i j, d.Mem i j → (msk i j = true ↔ OnDirichlet d bc i j)) (ha : ∀ i j, d.Mem i j → alp i j < 0) (hsig : ∀ i j, 0 ≤ sig i j)
    (hD : ∀ i j, d.Mem i j → OnDirichlet d bc i j → p i j = q i j)
    (hA : ∀ i j, d.Mem i j → helmApply ⟨fillbcCc d.cells d.cells bc sig, fun _ _ => 0, fun _ _ => 0, alp, dxinv, dyinv⟩ msk (applybcNd d d bc p) i j =
      helmApply ⟨fillbcCc d.cells d.cells bc sig, fun _ _ => 0, fun _ _ => 0, alp, dxinv, dyinv⟩ msk (applybcNd d d bc q) i j) (i j : ℤ) (hi : d.Mem i j) : p i j = q i j := by
  have ht : d.Tile d := ⟨⟨le_refl _, le_refl _, le_refl _, le_refl _⟩, hx.le, hy.le⟩
  have h2 : (2 : K) ≠ 0 := two_ne_zero
  -- the difference
  let e : ℤ → ℤ → K := fun i j => p i j - q i j
  have he : PeriodicField d bc e := ⟨fun h i j => by simp only [e]; rw [hp.1 h, hq.1 h], fun h i j => by simp only [e]; rw [hp.2 h, hq.2 h]⟩
  have hz : ZeroOnDirichlet d bc e := fun i j h h' => sub_eq_zero.2 (hD i j h h')
  have k1 := wall_energy d hx hy bc hbc (fun _ _ => 0) sig alp p e msk dxinv dyinv hs hp he hz hm
  have k2 := wall_energy d hx hy bc hbc (fun _ _ => 0) sig alp q e msk dxinv dyinv hs hq he hz hm
  have k3 : nodeSum d (fun i j => setDotMask d d bc (ownMask d bc) (fun _ _ => (0 : K)) i j *
        (e i j * helmApply ⟨fillbcCc d.cells d.cells bc sig, fun _ _ => 0, fun _ _ => 0, alp, dxinv, dyinv⟩ msk (applybcNd d d bc p) i j)) =
      nodeSum d (fun i j => setDotMask d d bc (ownMask d bc) (fun _ _ => (0 : K)) i j *
        (e i j * helmApply ⟨fillbcCc d.cells d.cells bc sig, fun _ _ => 0, fun _ _ => 0, alp, dxinv, dyinv⟩ msk (applybcNd d d bc q) i j)) := by
    unfold nodeSum
    refine Finset.sum_congr rfl fun i hi => Finset.sum_congr rfl fun j hj => ?_
    rw [Finset.mem_Icc] at hi hj
    beta_reduce
    rw [hA i j ⟨hi.1, hi.2, hj.1, hj.2⟩]
  rw [k1, k2] at k3
  have dotn : ∀ i j, d.Mem i j → 0 ≤ setDotMask d d bc (ownMask d bc) (fun _ _ => (0 : K)) i j := by
    intro i j h
    rw [(dot_mask d d ht bc _ _ i j).1 h]
    refine mul_nonneg ?_ (by positivity)
    unfold ownMask; split <;> simp
  -- both parts of the energy have a sign
  have k4 : nodeSum d (fun i j => setDotMask d d bc (ownMask d bc) (fun _ _ => (0 : K)) i j * (-alp i j * (e i j * e i j))) +
      cellSum d (fun i j => sig i j * (cellGradX dxinv e i j * cellGradX dxinv e i j + cellGradY dyinv e i j * cellGradY dyinv e i j)) = 0 := by
    have n1 : nodeSum d (fun i j => setDotMask d d bc (ownMask d bc) (fun _ _ => (0 : K)) i j * (-alp i j * (e i j * e i j))) =
        nodeSum d (fun i j => setDotMask d d bc (ownMask d bc) (fun _ _ => (0 : K)) i j * (alp i j * q i j * e i j)) -
        nodeSum d (fun i j => setDotMask d d bc (ownMask d bc) (fun _ _ => (0 : K)) i j * (alp i j * p i j * e i j)) := by
      unfold nodeSum
      rw [← Finset.sum_sub_distrib]
      refine Finset.sum_congr rfl fun i _ => ?_
      rw [← Finset.sum_sub_distrib]
      exact Finset.sum_congr rfl fun j _ => by simp only [e]; ring
    have n2 : cellSum d (fun i j => sig i j * (cellGradX dxinv e i j * cellGradX dxinv e i j + cellGradY dyinv e i j * cellGradY dyinv e i j)) =
        cellSum d (fun i j => sig i j * (cellGradX dxinv p i j * cellGradX dxinv e i j + cellGradY dyinv p i j * cellGradY dyinv e i j)) -
        cellSum d (fun i j => sig i j * (cellGradX dxinv q i j * cellGradX dxinv e i j + cellGradY dyinv q i j * cellGradY dyinv e i j)) := by
      unfold cellSum
      rw [← Finset.sum_sub_distrib]
      refine Finset.sum_congr rfl fun i _ => ?_
      rw [← Finset.sum_sub_distrib]
      exact Finset.sum_congr rfl fun j _ => by simp only [e, cellGradX, cellGradY]; ring
    rw [n1, n2]
    linear_combination -k3
  have g1 : ∀ i ∈ Finset.Icc d.ilo d.ihi, ∀ j ∈ Finset.Icc d.jlo d.jhi,
      0 ≤ setDotMask d d bc (ownMask d bc) (fun _ _ => (0 : K)) i j * (-alp i j * (e i j * e i j)) := by
    intro i hi j hj
    rw [Finset.mem_Icc] at hi hj
    have hmem : d.Mem i j := ⟨hi.1, hi.2, hj.1, hj.2⟩
    exact mul_nonneg (dotn i j hmem) (mul_nonneg (by linarith [ha i j hmem]) (mul_self_nonneg _))
  have g2 : 0 ≤ cellSum d (fun i j => sig i j * (cellGradX dxinv e i j * cellGradX dxinv e i j + cellGradY dyinv e i j * cellGradY dyinv e i j)) :=
    Finset.sum_nonneg fun i _ => Finset.sum_nonneg fun j _ => mul_nonneg (hsig i j) (add_nonneg (mul_self_nonneg _) (mul_self_nonneg _))
  have g3 : nodeSum d (fun i j => setDotMask d d bc (ownMask d bc) (fun _ _ => (0 : K)) i j * (-alp i j * (e i j * e i j))) = 0 :=
    le_antisymm (by linarith) (Finset.sum_nonneg fun i hi => Finset.sum_nonneg fun j hj => g1 i hi j hj)
  have g4 : ∀ i j, d.Mem i j → ownMask d bc i j = 1 → e i j = 0 := by
    intro i j h ho
    have z1 := (Finset.sum_eq_zero_iff_of_nonneg (fun i hi => Finset.sum_nonneg fun j hj => g1 i hi j hj)).1 g3 i (Finset.mem_Icc.2 ⟨h.1, h.2.1⟩)
    have z2 := (Finset.sum_eq_zero_iff_of_nonneg (fun j hj => g1 i (Finset.mem_Icc.2 ⟨h.1, h.2.1⟩) j hj)).1 z1 j (Finset.mem_Icc.2 ⟨h.2.2.1, h.2.2.2⟩)
    rw [(dot_mask d d ht bc _ _ i j).1 h, ho] at z2
    have hp2 : ((1 : K) / 2) ^ wallCount d bc i j ≠ 0 := pow_ne_zero _ (by norm_num)
    have hal : -alp i j ≠ 0 := by have := ha i j h; intro h'; linarith
    have := (mul_eq_zero.1 z2).resolve_left (by simpa using hp2)
    exact mul_self_eq_zero.1 ((mul_eq_zero.1 this).resolve_left hal)
  -- every node is owned up to periodicity
  have g5 : e i j = 0 := by
    obtain ⟨m1, m2, m3, m4⟩ := hi
    have hk : ∃ i' j', d.Mem i' j' ∧ ownMask d bc i' j' = 1 ∧ e i j = e i' j' := by
      refine ⟨if bc.xlo = .periodic ∧ i = d.ihi then d.ilo else i, if bc.ylo = .periodic ∧ j = d.jhi then d.jlo else j, ?_, ?_, ?_⟩
      · refine ⟨?_, ?_, ?_, ?_⟩ <;> split <;> omega
      · unfold ownMask
        rw [if_neg]
        rintro (⟨h1, h2⟩ | ⟨h1, h2⟩)
        · split at h2
          · omega
          · rename_i h3; exact h3 ⟨h1, h2⟩
        · split at h2
          · omega
          · rename_i h3; exact h3 ⟨h1, h2⟩
      · have a1 : ∀ b, e i b = e (if bc.xlo = .periodic ∧ i = d.ihi then d.ilo else i) b := by
          intro b
          split
          · rename_i h
            rw [← he.1 h.1 d.ilo b]
            congr 1; omega
          · rfl
        have a2 : ∀ a, e a j = e a (if bc.ylo = .periodic ∧ j = d.jhi then d.jlo else j) := by
          intro a
          split
          · rename_i h
            rw [← he.2 h.1 a d.jlo]
            congr 1; omega
          · rfl
        rw [a1, a2]
    obtain ⟨i', j', h1, h2, h3⟩ := hk
    rw [h3, g4 i' j' h1 h2]
  exact sub_eq_zero.1 g5

/-! ## Concrete cases -/

/-- Two by two cells. -/
def box22 : NBox := ⟨0, 2, 0, 2⟩

/-- A wall on the left, a Dirichlet side on the right, periodic in y. -/
def mixedBC : Sides LinBC := ⟨.neumann, .dirichlet, .periodic, .periodic⟩

/-- Walls on all sides. -/
def wallBC : Sides LinBC := ⟨.neumann, .neumann, .inflow, .neumann⟩

/-- A ramp that is zero on the Dirichlet side. -/
def rampF (i _j : ℤ) : ℚ := 2 - (i : ℚ)

/-- Nodal values that are not symmetric. -/
def prodF (i j : ℤ) : ℚ := (i : ℚ) * (j : ℚ)

-- the hypotheses of `wall_energy`, `wall_symmetric` and `wall_unique` hold for a wall, a Dirichlet side and periodic sides, and the energy is not zero
example : box22.ilo < box22.ihi ∧ box22.jlo < box22.jhi ∧ mixedBC.Paired ∧ PeriodicField box22 mixedBC (fun _ _ => (1 : ℚ)) ∧ PeriodicField box22 mixedBC rampF ∧
    ZeroOnDirichlet box22 mixedBC rampF ∧ (∀ i j, box22.Mem i j → (decide (i = 2) = true ↔ OnDirichlet box22 mixedBC i j)) ∧
    cellSum box22 (fun i j => 1 * (cellGradX 1 rampF i j * cellGradX 1 rampF i j + cellGradY 1 rampF i j * cellGradY 1 rampF i j)) = 4 := by
  refine ⟨by decide, by decide, by unfold Sides.Paired; decide, ⟨fun h => by simp [mixedBC] at h, fun _ _ _ => rfl⟩, ⟨fun h => by simp [mixedBC] at h, fun _ _ _ => rfl⟩, ?_, ?_, by decide +kernel⟩
  · rintro i j - h
    simp only [OnDirichlet, mixedBC, box22] at h
    simp at h
    simp [rampF, h]
  · intro i j _
    simp [OnDirichlet, mixedBC, box22]

-- the operator on this domain: at the node on the wall and at an inner node
example : helmApply ⟨fillbcCc box22.cells box22.cells mixedBC (fun _ _ => (1 : ℚ)), fun _ _ => 0, fun _ _ => 0, fun _ _ => -1, 1, 1⟩ (fun i _ => decide (i = 2))
      (applybcNd box22 box22 mixedBC rampF) 0 1 = -4 ∧
    helmApply ⟨fillbcCc box22.cells box22.cells mixedBC (fun _ _ => (1 : ℚ)), fun _ _ => 0, fun _ _ => 0, fun _ _ => -1, 1, 1⟩ (fun i _ => decide (i = 2))
      (applybcNd box22 box22 mixedBC rampF) 1 1 = -1 := by decide +kernel

-- the hypotheses of `wall_compatible` and `wall_green` hold for a field between walls, and its right-hand side is not zero
example : wallBC.Paired ∧ GhostFilled box22 wallBC (wallZero box22 wallBC prodF) ∧
    compRhs 1 1 box22 box22 wallBC (fun _ _ => false) (wallZero box22 wallBC prodF) (wallZero box22 wallBC prodF) 1 1 = 1 ∧
    compRhs 1 1 box22 box22 wallBC (fun _ _ => false) (wallZero box22 wallBC prodF) (wallZero box22 wallBC prodF) 2 2 = -4 := by
  refine ⟨by unfold Sides.Paired; decide, ⟨fun h => by simp [wallBC] at h, fun h => by simp [wallBC] at h, fun a b => ?_⟩, by decide +kernel, by decide +kernel⟩
  unfold wallZero; split <;> rfl

/-- **C185 (counterexample).** With cross coefficients (Coriolis) and walls the operator is not conservative: the second component of the cross coefficients has the ghost value 0,
the first one is mirrored without change of sign, and the weighted sum of the operator without diagonal part is not zero. -/
theorem wall_cross_not_conservative : ∃ (d : NBox) (bc : Sides LinBC) (s0 s1 phi : ℤ → ℤ → ℚ), (bc.xlo = .neumann ∧ bc.xhi = .neumann ∧ bc.ylo = .neumann ∧ bc.yhi = .neumann) ∧
    (∀ i j, ¬ d.cells.Mem i j → s1 i j = 0) ∧ (∀ i j, d.cells.Mem i j → s1 i j = -s0 i j) ∧
    nodeSum d (fun i j => setDotMask d d bc (ownMask d bc) (fun _ _ => 0) i j *
      helmApply ⟨fun _ _ => 0, fillbcCc d.cells d.cells bc s0, s1, fun _ _ => 0, 1, 1⟩ (fun _ _ => false) (applybcNd d d bc phi) i j) ≠ 0 := by
  refine ⟨box22, ⟨.neumann, .neumann, .neumann, .neumann⟩, fun i j => if box22.cells.Mem i j then 1 else 0, fun i j => if box22.cells.Mem i j then -1 else 0, prodF,
    ⟨rfl, rfl, rfl, rfl⟩, fun i j h => by simp [h], fun i j h => by simp [h], by decide +kernel⟩

end Fub
