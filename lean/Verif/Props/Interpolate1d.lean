import Verif.Lemmas.Logging
import Verif.Model.Interpolate1d
import Mathlib.Algebra.Order.BigOperators.Group.Finset
import Mathlib.Algebra.BigOperators.Intervals
import Mathlib.Tactic.Linarith
import Mathlib.Tactic.Positivity
import Mathlib.Tactic.FieldSimp
import Mathlib.Tactic.Ring
import Mathlib.Tactic.NormNum

/-!
# C136: initial data from a one dimensional solution
-/

namespace Fub

section
variable {K : Type*}

/-- **C136.** The table the cells are filled from is the dataset of the file, for every number of rows
and six columns. -/
theorem interp1d_reads_dataset (dataset : ℕ → ℕ → K) (rows i v : ℕ) (hi : i < rows) (hv : v < 6) :
    rawPrims (transposeRaw (readRaw dataset 6) rows 6) (rows * 6) i v = dataset i v := by
  have h1 : rows * 6 / 6 = rows := by omega
  have h2 : (i + v * rows) % rows = i := by
    rw [Nat.add_mul_mod_self_right, Nat.mod_eq_of_lt hi]
  have h3 : (i + v * rows) / rows = v := by
    rw [Nat.add_mul_div_right _ _ (by omega), Nat.div_eq_of_lt hi, Nat.zero_add]
  simp only [rawPrims, transposeRaw, readRaw, h1, h2, h3]
  congr 1 <;> omega

variable [Field K] [LinearOrder K] [IsStrictOrderedRing K]

omit [Field K] [IsStrictOrderedRing K] in
theorem lowerBound_positions (xs : ℕ → K) (n : ℕ) (hsort : ∀ i j, i ≤ j → j < n → xs i ≤ xs j)
    (v : K) :
    lowerBound (fun i => decide (xs i < v)) n ≤ n ∧
    (∀ i, i < lowerBound (fun i => decide (xs i < v)) n → xs i < v) ∧
    (∀ i, lowerBound (fun i => decide (xs i < v)) n ≤ i → i < n → v ≤ xs i) := by
  obtain ⟨a, b, c⟩ := lowerBound_spec (fun i => decide (xs i < v)) n (fun i j hij hj hb => by
    simp only [decide_eq_true_eq] at hb ⊢
    exact lt_of_le_of_lt (hsort i j hij hj) hb)
  refine ⟨a, fun i hi => by simpa using b i hi, fun i h1 h2 => by simpa using c i h1 h2⟩

/-- **C136.** A cell whose right end is beyond all positions gets the last value. -/
theorem interp1d_beyond_last (xs val : ℕ → K) (n : ℕ) (xlo xhi : K) (hall : ∀ i, i < n → xs i < xhi) :
    interpColumn xs val n xlo xhi = val (n - 1) := by
  have h : lowerBound (fun i => decide (xs i < xhi)) n = n :=
    lowerBound_unique _ _ _ le_rfl (fun i hi => by simpa using hall i hi) (fun i h1 h2 => by omega)
  simp only [interpColumn]
  rw [h, if_pos le_rfl]

/-- **C136.** A cell that contains no position, or one, gets the value of the first position at or
beyond its right end. -/
theorem interp1d_few_positions (xs val : ℕ → K) (n : ℕ)
    (hsort : ∀ i j, i ≤ j → j < n → xs i ≤ xs j) (xlo xhi : K)
    (j : ℕ) (hj : j < n) (hxj : xhi ≤ xs j) (hfirst : ∀ i, i < j → xs i < xhi)
    (hfew : ∀ i k, i < n → k < n → xlo ≤ xs i → xs i < xhi → xlo ≤ xs k → xs k < xhi → i = k) :
    interpColumn xs val n xlo xhi = val j := by
  have hup : lowerBound (fun i => decide (xs i < xhi)) n = j :=
    lowerBound_unique _ _ _ hj.le (fun i hi => by simpa using hfirst i hi)
      (fun i h1 h2 => by simpa using le_trans hxj (hsort j i h1 h2))
  obtain ⟨a, b, c⟩ := lowerBound_positions xs n hsort xlo
  simp only [interpColumn]
  rw [hup, if_neg (by omega), if_pos]
  intro hlt
  generalize lowerBound (fun i => decide (xs i < xlo)) n = l at *
  have := hfew l (l + 1) (by omega) (by omega) (c l le_rfl (by omega)) (hfirst l (by omega))
    (c (l + 1) (by omega) (by omega)) (hfirst (l + 1) hlt)
  omega

omit [LinearOrder K] [IsStrictOrderedRing K] in
theorem foldl_range_add (f : ℕ → K) (m : ℕ) :
    (List.range m).foldl (fun (s : K) k => s + f k) 0 = ∑ k ∈ Finset.range m, f k := by
  induction m with
  | zero => simp
  | succ n ih => rw [List.range_succ, List.foldl_append, ih, Finset.sum_range_succ]; rfl

/-- **C136.** A cell that contains at least two positions, and is not beyond the last one, gets the mean
of the values at its positions without the leftmost of them. -/
theorem interp1d_mean_of_positions (xs val : ℕ → K) (n : ℕ)
    (hsort : ∀ i j, i ≤ j → j < n → xs i ≤ xs j) (xlo xhi : K)
    (S : Finset ℕ) (hS : ∀ i, i ∈ S ↔ i < n ∧ xlo ≤ xs i ∧ xs i < xhi)
    (k : ℕ) (hk : k ∈ S) (hkmin : ∀ i ∈ S, k ≤ i) (htwo : 2 ≤ S.card)
    (hnext : ∃ i, i < n ∧ xhi ≤ xs i) :
    interpColumn xs val n xlo xhi = (∑ i ∈ S.erase k, val i) / ((S.card : K) - 1) := by
  obtain ⟨a1, b1, c1⟩ := lowerBound_positions xs n hsort xlo
  obtain ⟨a2, b2, c2⟩ := lowerBound_positions xs n hsort xhi
  simp only [interpColumn]
  generalize lowerBound (fun i => decide (xs i < xlo)) n = l at *
  generalize lowerBound (fun i => decide (xs i < xhi)) n = u at *
  obtain ⟨m, hm, hxm⟩ := hnext
  have hun : ¬ n ≤ u := by
    intro h
    exact absurd (b2 m (by omega)) (not_lt.mpr hxm)
  have hSI : S = Finset.Ico l u := by
    ext i
    rw [hS, Finset.mem_Ico]
    constructor
    · rintro ⟨h1, h2, h3⟩
      refine ⟨?_, ?_⟩
      · by_contra hc
        exact absurd (b1 i (by omega)) (not_lt.mpr h2)
      · by_contra hc
        exact absurd h3 (not_lt.mpr (c2 i (by omega) h1))
    · rintro ⟨h1, h2⟩
      exact ⟨by omega, c1 i h1 (by omega), b2 i h2⟩
  subst hSI
  rw [Nat.card_Ico] at htwo ⊢
  have hkl : k = l := by
    have h1 := hkmin l (Finset.mem_Ico.mpr ⟨le_rfl, by omega⟩)
    have h2 := (Finset.mem_Ico.mp hk).1
    omega
  subst hkl
  rw [if_neg hun, if_neg (by omega), foldl_range_add]
  have e1 : (Finset.Ico k u).erase k = Finset.Ico (k + 1) u := by
    ext i
    simp only [Finset.mem_erase, Finset.mem_Ico]
    omega
  rw [e1, Finset.sum_Ico_eq_sum_range]
  congr 1
  rw [Nat.cast_sub (by omega : k + 1 ≤ u), Nat.cast_sub (by omega : k ≤ u)]
  push_cast
  ring

/-- **C136.** The value in a cell lies between bounds of the given values. -/
theorem interp1d_bounds (xs val : ℕ → K) (n : ℕ) (hn : 0 < n)
    (hsort : ∀ i j, i ≤ j → j < n → xs i ≤ xs j) (xlo xhi lo hi : K)
    (hval : ∀ i, i < n → lo ≤ val i ∧ val i ≤ hi) :
    lo ≤ interpColumn xs val n xlo xhi ∧ interpColumn xs val n xlo xhi ≤ hi := by
  obtain ⟨a1, b1, c1⟩ := lowerBound_positions xs n hsort xlo
  obtain ⟨a2, b2, c2⟩ := lowerBound_positions xs n hsort xhi
  simp only [interpColumn]
  generalize lowerBound (fun i => decide (xs i < xlo)) n = l at *
  generalize lowerBound (fun i => decide (xs i < xhi)) n = u at *
  by_cases h1 : n ≤ u
  · rw [if_pos h1]
    exact hval _ (by omega)
  · rw [if_neg h1]
    by_cases h2 : ¬ l + 1 < u
    · rw [if_pos h2]
      exact hval _ (by omega)
    · rw [if_neg h2, foldl_range_add]
      have hm : 0 < u - (l + 1) := by omega
      have hmK : (0 : K) < ((u - (l + 1) : ℕ) : K) := by exact_mod_cast hm
      rw [le_div_iff₀ hmK, div_le_iff₀ hmK]
      constructor
      · have := Finset.card_nsmul_le_sum (Finset.range (u - (l + 1)))
          (fun k => val (l + 1 + k)) lo (fun k hk => (hval _ (by
            have := Finset.mem_range.mp hk; omega)).1)
        rw [Finset.card_range, nsmul_eq_mul] at this
        linarith
      · have := Finset.sum_le_card_nsmul (Finset.range (u - (l + 1)))
          (fun k => val (l + 1 + k)) hi (fun k hk => (hval _ (by
            have := Finset.mem_range.mp hk; omega)).2)
        rw [Finset.card_range, nsmul_eq_mul] at this
        linarith

/-- **C136**, a disagreement: data given at the cell centres of the grid itself do not come back. Every
cell but the last gets the value of its right neighbour. -/
theorem interp1d_cell_centres_shifted (x0 dx : K) (hdx : 0 < dx) (val : ℕ → K) (n c : ℕ) (hc : c < n) :
    interpColumn (fun i => x0 + ((i : K) + 1 / 2) * dx) val n (x0 + (c : K) * dx)
      (x0 + ((c : K) + 1) * dx) = val (min (c + 1) (n - 1)) := by
  have hmono : ∀ i j : ℕ, x0 + ((i : K) + 1 / 2) * dx < x0 + ((j : K) + 1) * dx ↔ i ≤ j := by
    intro i j
    constructor
    · intro h
      by_contra hlt
      have : (j : K) + 1 ≤ (i : K) := by exact_mod_cast (by omega : j + 1 ≤ i)
      nlinarith
    · intro h
      have : (i : K) ≤ (j : K) := by exact_mod_cast h
      nlinarith
  have hmono' : ∀ i j : ℕ, x0 + ((i : K) + 1 / 2) * dx < x0 + (j : K) * dx ↔ i < j := by
    intro i j
    constructor
    · intro h
      by_contra hlt
      have : (j : K) ≤ (i : K) := by exact_mod_cast (by omega : j ≤ i)
      nlinarith
    · intro h
      have : (i : K) + 1 ≤ (j : K) := by exact_mod_cast h
      nlinarith
  have hlo : lowerBound (fun i => decide (x0 + ((i : K) + 1 / 2) * dx < x0 + (c : K) * dx)) n = c :=
    lowerBound_unique _ _ _ hc.le (fun i hi => by simp only [hmono', decide_eq_true_eq]; exact hi)
      (fun i h1 _ => by simp only [hmono', decide_eq_false_iff_not]; omega)
  have hup : lowerBound (fun i => decide (x0 + ((i : K) + 1 / 2) * dx < x0 + ((c : K) + 1) * dx)) n
      = c + 1 :=
    lowerBound_unique _ _ _ hc (fun i hi => by simp only [hmono, decide_eq_true_eq]; omega)
      (fun i h1 _ => by simp only [hmono, decide_eq_false_iff_not]; omega)
  simp only [interpColumn]
  rw [hlo, hup]
  by_cases h : n ≤ c + 1
  · rw [if_pos h]
    congr 1
    omega
  · rw [if_neg h, if_pos (by omega)]
    congr 1
    omega

end

/-- **C136.** A cell with free volume gets a gas state whose density and pressure are within the bounds
of the file, positive if they are positive there, with a velocity along the first axis only and the
energy that belongs to them; a cell without free volume keeps its state. -/
theorem interp1d_cell_state {d : ℕ} (eq : GasEq) (old : GasComplete (d + 1)) (alpha : ℝ)
    (dataset : ℕ → ℕ → ℝ) (rows : ℕ) (hrows : 0 < rows)
    (hsort : ∀ i j, i ≤ j → j < rows → dataset i 0 ≤ dataset j 0)
    (hpos : ∀ i, i < rows → 0 < dataset i 1 ∧ 0 < dataset i 5) (xlo xhi : ℝ) :
    let raw := transposeRaw (readRaw dataset 6) rows 6
    let q := interp1dCell eq alpha old raw (rows * 6) xlo xhi
    (alpha ≤ 0 → q = old) ∧
    (0 < alpha →
      q.density = interpColumn (fun i => dataset i 0) (fun i => dataset i 1) rows xlo xhi ∧
      q.pressure = interpColumn (fun i => dataset i 0) (fun i => dataset i 5) rows xlo xhi ∧
      gasVelocity q 0 = interpColumn (fun i => dataset i 0) (fun i => dataset i 2) rows xlo xhi ∧
      0 < q.density ∧ 0 < q.pressure ∧ (∀ i, i ≠ 0 → gasVelocity q i = 0) ∧
      q.energy = gasKinetic q.density q.momentum + q.pressure * eq.gammaMinus1Inv) := by
  have hcongr : ∀ (xs xs' val val' : ℕ → ℝ), (∀ i, i < rows → xs i = xs' i) →
      (∀ i, i < rows → val i = val' i) → (∀ i j, i ≤ j → j < rows → xs' i ≤ xs' j) →
      interpColumn xs val rows xlo xhi = interpColumn xs' val' rows xlo xhi := by
    intro xs xs' val val' hx hv hs
    have hb : ∀ v, lowerBound (fun i => decide (xs i < v)) rows =
        lowerBound (fun i => decide (xs' i < v)) rows := by
      intro v
      obtain ⟨a, b, c⟩ := lowerBound_positions xs' rows hs v
      refine lowerBound_unique _ _ _ a (fun i hi => ?_) (fun i h1 h2 => ?_)
      · rw [hx i (by omega)]; simpa using b i hi
      · rw [hx i h2]; simpa using c i h1 h2
    simp only [interpColumn, hb]
    obtain ⟨a2, b2, c2⟩ := lowerBound_positions xs' rows hs xhi
    generalize lowerBound (fun i => decide (xs' i < xlo)) rows = l at *
    generalize lowerBound (fun i => decide (xs' i < xhi)) rows = u at *
    by_cases h1 : rows ≤ u
    · rw [if_pos h1, if_pos h1, hv _ (by omega)]
    · rw [if_neg h1, if_neg h1]
      by_cases h2 : ¬ l + 1 < u
      · rw [if_pos h2, if_pos h2, hv _ (by omega)]
      · rw [if_neg h2, if_neg h2, foldl_range_add, foldl_range_add]
        congr 1
        refine Finset.sum_congr rfl fun k hk => hv _ ?_
        have := Finset.mem_range.mp hk
        omega
  intro raw q
  have hN : rows * 6 / 6 = rows := by omega
  have hcol : ∀ v, v < 6 →
      interpColumn (fun i => rawPrims raw (rows * 6) i 0) (fun i => rawPrims raw (rows * 6) i v)
        rows xlo xhi = interpColumn (fun i => dataset i 0) (fun i => dataset i v) rows xlo xhi :=
    fun v hv => hcongr _ _ _ _ (fun i hi => interp1d_reads_dataset dataset rows i 0 hi (by omega))
      (fun i hi => interp1d_reads_dataset dataset rows i v hi hv) hsort
  refine ⟨fun ha => ?_, fun ha => ?_⟩
  · show interp1dCell eq alpha old raw (rows * 6) xlo xhi = old
    unfold interp1dCell
    rw [if_neg (not_lt.mpr ha)]
  · have hq : q = gasFromPrim eq
        ⟨interpColumn (fun i => dataset i 0) (fun i => dataset i 1) rows xlo xhi,
          fun i => if i = 0 then
            interpColumn (fun i => dataset i 0) (fun i => dataset i 2) rows xlo xhi else 0,
          interpColumn (fun i => dataset i 0) (fun i => dataset i 5) rows xlo xhi⟩ := by
      show interp1dCell eq alpha old raw (rows * 6) xlo xhi = _
      unfold interp1dCell
      rw [if_pos ha]
      simp only [interpPrims, hN]
      rw [hcol 1 (by omega), hcol 2 (by omega), hcol 5 (by omega)]
    have hpd : 0 < interpColumn (fun i => dataset i 0) (fun i => dataset i 1) rows xlo xhi := by
      obtain ⟨m, hm, hmin⟩ := Finset.exists_min_image (Finset.range rows) (fun i => dataset i 1)
        ⟨0, Finset.mem_range.mpr hrows⟩
      obtain ⟨M, hM, hmax⟩ := Finset.exists_max_image (Finset.range rows) (fun i => dataset i 1)
        ⟨0, Finset.mem_range.mpr hrows⟩
      exact lt_of_lt_of_le (hpos m (Finset.mem_range.mp hm)).1
        (interp1d_bounds _ _ rows hrows hsort xlo xhi _ (dataset M 1)
          (fun i hi => ⟨hmin i (Finset.mem_range.mpr hi), hmax i (Finset.mem_range.mpr hi)⟩)).1
    have hpp : 0 < interpColumn (fun i => dataset i 0) (fun i => dataset i 5) rows xlo xhi := by
      obtain ⟨m, hm, hmin⟩ := Finset.exists_min_image (Finset.range rows) (fun i => dataset i 5)
        ⟨0, Finset.mem_range.mpr hrows⟩
      obtain ⟨M, hM, hmax⟩ := Finset.exists_max_image (Finset.range rows) (fun i => dataset i 5)
        ⟨0, Finset.mem_range.mpr hrows⟩
      exact lt_of_lt_of_le (hpos m (Finset.mem_range.mp hm)).2
        (interp1d_bounds _ _ rows hrows hsort xlo xhi _ (dataset M 5)
          (fun i hi => ⟨hmin i (Finset.mem_range.mpr hi), hmax i (Finset.mem_range.mpr hi)⟩)).1
    rw [hq]
    refine ⟨rfl, rfl, ?_, hpd, hpp, fun i hi => ?_, rfl⟩
    · simp only [gasVelocity, gasFromPrim, if_true]
      field_simp
    · simp [gasVelocity, gasFromPrim, hi]

/-- Seven positions and a cell with three of them: the first is left out. -/
example : interpColumn (fun i : ℕ => (i : ℚ)) (fun i => (i : ℚ) * 10) 7 2 5 = 35 ∧
    interpColumn (fun i : ℕ => (i : ℚ)) (fun i => (i : ℚ) * 10) 7 (3 / 2) (5 / 2) = 30 ∧
    interpColumn (fun i : ℕ => (i : ℚ)) (fun i => (i : ℚ) * 10) 7 5 9 = 60 := by
  decide +kernel

/-- The positions of the first of these cells. -/
example : ∀ i, i ∈ ({2, 3, 4} : Finset ℕ) ↔ i < 7 ∧ (2 : ℚ) ≤ (i : ℚ) ∧ (i : ℚ) < 5 := by
  intro i
  have h1 : (2 : ℚ) ≤ (i : ℚ) ↔ 2 ≤ i := by exact_mod_cast Iff.rfl
  have h2 : (i : ℚ) < 5 ↔ i < 5 := by exact_mod_cast Iff.rfl
  simp only [Finset.mem_insert, Finset.mem_singleton, h1, h2]
  omega

end Fub
