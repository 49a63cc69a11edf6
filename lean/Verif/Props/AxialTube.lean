import Verif.Model.AxialTube
import Verif.Props.IndexBox
import Verif.Props.Hllem
import Mathlib.Algebra.BigOperators.Intervals
import Mathlib.Order.Interval.Finset.Basic
import Mathlib.Analysis.SpecialFunctions.Pow.Real
import Mathlib.Analysis.SpecialFunctions.ExpDeriv
import Mathlib.Analysis.Calculus.Deriv.Pow
import Mathlib.Tactic.FieldSimp
import Mathlib.Tactic.Ring
import Mathlib.Tactic.Linarith
import Mathlib.Tactic.LinearCombination

/-!
C86 (time integrator for tubes with varying cross section), C87 (axial source term).
-/

namespace Fub
variable {K ι : Type}

/-! ### Specification -/

/-- The volume of the piece of the tube between the faces `c` and `c + 1`. -/
def tubeVolume [Field K] (area : Int → K) (dx : K) (c : Int) : K := dx * (area c + area (c + 1)) / 2

/-! ### The cells -/

theorem foldl_update_cells {X : Type} (f : Int → X → X) (l : List Int) (hl : l.Nodup) (u : Int → X) (c : Int) :
    l.foldl (fun u c => Function.update u c (f c (u c))) u c = if c ∈ l then f c (u c) else u c := by
  induction l generalizing u with
  | nil => simp
  | cons a l ih =>
    obtain ⟨h1, h2⟩ := List.nodup_cons.1 hl
    rw [List.foldl_cons, ih h2]
    by_cases hc : c = a
    · subst hc; simp [h1]
    · simp [hc]

/-- **C86.** Exactly the cells with two fluxes are updated, each of them from its old value, its two fluxes, areas and pressures; all other cells keep their values. -/
theorem axial_update_cells [Field K] [DecidableEq ι] (mom : ι) (dt dx : K) (area p : Int → K) (flux : Int → ι → K) (tile fluxBox : Int × Int)
    (u : Int → ι → K) (c : Int) :
    (tile.1 ≤ c ∧ c ≤ tile.2 ∧ fluxBox.1 ≤ c ∧ c + 1 ≤ fluxBox.2 →
      axialUpdate mom dt dx area p flux (axialCells tile fluxBox) u c = axialCell mom (dt / dx) area p flux (u c) c) ∧
    (¬(tile.1 ≤ c ∧ c ≤ tile.2 ∧ fluxBox.1 ≤ c ∧ c + 1 ≤ fluxBox.2) → axialUpdate mom dt dx area p flux (axialCells tile fluxBox) u c = u c) := by
  have hm : c ∈ loopRange (axialCells tile fluxBox).1 (axialCells tile fluxBox).2 ↔ (tile.1 ≤ c ∧ c ≤ tile.2 ∧ fluxBox.1 ≤ c ∧ c + 1 ≤ fluxBox.2) := by
    rw [mem_loopRange]; simp only [axialCells]; omega
  have := foldl_update_cells (fun c v => axialCell mom (dt / dx) area p flux v c) (loopRange (axialCells tile fluxBox).1 (axialCells tile fluxBox).2)
    ((pairwise_loopRange _ _).imp (fun h => ne_of_lt h)) u c
  constructor
  · intro h
    rw [axialUpdate, this, if_pos (hm.2 h)]
  · intro h
    rw [axialUpdate, this, if_neg (fun h' => h (hm.1 h'))]

theorem axial_update_in [Field K] [DecidableEq ι] (mom : ι) (dt dx : K) (area p : Int → K) (flux : Int → ι → K) (lo hi : Int)
    (u : Int → ι → K) (c : Int) (h : lo ≤ c ∧ c < hi) :
    axialUpdate mom dt dx area p flux (lo, hi) u c = axialCell mom (dt / dx) area p flux (u c) c := by
  rw [axialUpdate, foldl_update_cells (fun c v => axialCell mom (dt / dx) area p flux v c) (loopRange lo hi)
    ((pairwise_loopRange _ _).imp (fun h => ne_of_lt h)) u c, if_pos ((mem_loopRange _ _ _).2 h)]

theorem sum_Ico_int_telescope [Field K] (g : Int → K) {lo hi : Int} (h : lo ≤ hi) : ∑ c ∈ Finset.Ico lo hi, (g c - g (c + 1)) = g lo - g hi := by
  induction hi, h using Int.le_induction with
  | base => simp
  | succ n hn ih =>
    have : Finset.Ico lo (n + 1) = insert n (Finset.Ico lo n) := by ext x; simp; omega
    rw [this, Finset.sum_insert (by simp), ih]; ring

section Conservation
variable [Field K] [LinearOrder K] [IsStrictOrderedRing K] [DecidableEq ι]

/-- One cell in terms of its content: the amount changes by what passes the two faces, the momentum also by the pressure on the wall. -/
theorem axial_cell_balance (mom : ι) {dt dx : K} (hdx : 0 < dx) {area : Int → K} (hA : ∀ f, 0 < area f) (p : Int → K) (flux : Int → ι → K)
    (v : ι → K) (c : Int) (i : ι) :
    tubeVolume area dx c * axialCell mom (dt / dx) area p flux v c i =
      tubeVolume area dx c * v i + dt * (area c * flux c i - area (c + 1) * flux (c + 1) i)
        + if i = mom then dt * ((area (c + 1) - area c) * ((p c + p (c + 1)) / 2)) else 0 := by
  have h1 := hA c
  have h2 := hA (c + 1)
  have h3 : area c + area (c + 1) ≠ 0 := by positivity
  have h4 : dx ≠ 0 := hdx.ne'
  simp only [axialCell, tubeVolume]
  by_cases hi : i = mom
  · subst hi
    simp only [Function.update_self, if_true]
    field_simp
  · simp only [Function.update_of_ne hi, hi, if_false]
    field_simp; ring

/-- **C86.** Mass, energy and species are conserved in a tube of any shape: the content of any range of cells changes by what flows through its two ends. The axial momentum
changes in addition by the pressure force of the wall, the sum over the cells of the area difference times the mean pressure. -/
theorem axial_conserves (mom : ι) {dt dx : K} (hdx : 0 < dx) {area : Int → K} (hA : ∀ f, 0 < area f) (p : Int → K) (flux : Int → ι → K)
    (u : Int → ι → K) {lo hi : Int} (h : lo ≤ hi) (i : ι) :
    ∑ c ∈ Finset.Ico lo hi, tubeVolume area dx c * axialUpdate mom dt dx area p flux (lo, hi) u c i =
      (∑ c ∈ Finset.Ico lo hi, tubeVolume area dx c * u c i) + dt * (area lo * flux lo i - area hi * flux hi i)
        + if i = mom then dt * ∑ c ∈ Finset.Ico lo hi, (area (c + 1) - area c) * ((p c + p (c + 1)) / 2) else 0 := by
  have key : ∑ c ∈ Finset.Ico lo hi, tubeVolume area dx c * axialUpdate mom dt dx area p flux (lo, hi) u c i =
      ∑ c ∈ Finset.Ico lo hi, (tubeVolume area dx c * u c i + dt * (area c * flux c i - area (c + 1) * flux (c + 1) i)
        + if i = mom then dt * ((area (c + 1) - area c) * ((p c + p (c + 1)) / 2)) else 0) := by
    refine Finset.sum_congr rfl fun c hc => ?_
    rw [Finset.mem_Ico] at hc
    rw [axial_update_in _ _ _ _ _ _ _ _ _ _ hc, axial_cell_balance mom hdx hA]
  rw [key, Finset.sum_add_distrib, Finset.sum_add_distrib, ← Finset.mul_sum, sum_Ico_int_telescope (fun c => area c * flux c i) h]
  by_cases hi : i = mom
  · simp only [hi, if_true, Finset.mul_sum]
  · simp [hi]

/-- **C86.** In a tube with a constant cross section the update is the one of the plane time integrator. -/
theorem axial_constant_area (mom : ι) {dt dx a : K} (ha : 0 < a) (p : Int → K) (flux : Int → ι → K) (v : ι → K) (c : Int) (i : ι) :
    [axialCell mom (dt / dx) (fun _ => a) p flux v c i] = consKernel (dt / dx) [v i, flux c i, flux (c + 1) i] := by
  have : a + a ≠ 0 := by positivity
  have h' : (2 : K) ≠ 0 := two_ne_zero
  simp only [axialCell, consKernel]
  congr 1
  by_cases hi : i = mom
  · subst hi
    simp only [Function.update_self, sub_self]
    field_simp; ring
  · simp only [Function.update_of_ne hi]
    field_simp; ring

/-- **C86.** If the fluxes through both faces of a cell consist of one and the same pressure only, nothing changes, whatever the shape of the tube. -/
theorem axial_at_rest (mom : ι) (dtdx : K) {area : Int → K} (hA : ∀ f, 0 < area f) (p : Int → K) (flux : Int → ι → K) (v : ι → K) (c : Int) (p0 : K)
    (hp : p c = p0 ∧ p (c + 1) = p0) (hf : ∀ f, f = c ∨ f = c + 1 → ∀ i, flux f i = if i = mom then p0 else 0) :
    axialCell mom dtdx area p flux v c = v := by
  have h1 := hA c
  have h2 := hA (c + 1)
  have h3 : area c + area (c + 1) ≠ 0 := by positivity
  funext i
  simp only [axialCell, hf c (Or.inl rfl), hf (c + 1) (Or.inr rfl), hp.1, hp.2]
  by_cases hi : i = mom
  · subst hi
    simp only [Function.update_self, if_true]
    field_simp; ring
  · simp only [Function.update_of_ne hi, hi, if_false]
    ring

end Conservation

/-- **C86.** A gas at rest under a uniform pressure stays exactly at rest in a tube of any shape, also if its density varies: HLLEM fluxes and interface pressures with the axial
time integrator keep every cell. -/
theorem axial_rest_hllem {eq : GasEq} (hv : eq.Valid) (larr : Bool) (dt dx : ℝ) {area : Int → ℝ} (hA : ∀ f, 0 < area f) {q : Int → GasComplete 1}
    (hq : ∀ c, IsGasState eq (q c)) (hm : ∀ c, (q c).momentum 0 = 0) (p0 : ℝ) (hp : ∀ c, (q c).pressure = p0) (lo hi : Int) (c : Int) :
    axialUpdate (GasVar.momentum 0) dt dx area (fun f => (hllemFluxArray eq larr 0 (q (f - 1)) (q f)).2)
      (fun f => (hllemFluxArray eq larr 0 (q (f - 1)) (q f)).1.get) (lo, hi) (fun c => (q c).cons.get) c = (q c).cons.get := by
  by_cases hc : lo ≤ c ∧ c < hi
  · rw [axial_update_in _ _ _ _ _ _ _ _ _ _ hc]
    have hP : ∀ f, (hllemFluxArray eq larr 0 (q (f - 1)) (q f)).2 = p0 := by
      intro f
      have := hllem_pstar hv (hq (f - 1)) (hq f) larr 0
      rw [hp, hp, min_self, max_self] at this
      exact le_antisymm this.2 this.1
    refine axial_at_rest _ _ hA _ _ _ _ p0 ⟨hP _, hP _⟩ ?_
    intro f _ i
    simp only [hllem_array_contact_partial hv (hq (f - 1)) (hq f) 0 (hm _) (hm _) (by rw [hp, hp]) larr (Or.inr (by decide))]
    cases i with
    | density => simp [GasCons.get]
    | momentum j => fin_cases j; simp [GasCons.get, hp]
    | energy => simp [GasCons.get]
  · rw [axialUpdate, foldl_update_cells (fun c v => axialCell _ (dt / dx) area _ _ v c) (loopRange lo hi)
      ((pairwise_loopRange _ _).imp (fun h => ne_of_lt h)) _ c, if_neg (fun h => hc ((mem_loopRange _ _ _).1 h))]

/-- **C86.** The areas used are those of the area function at the faces, after every change of the layout: whatever sequence of layouts was seen before. -/
theorem recompute_ax {B : Type} [DecidableEq B] (A : K → K) (face : Int → K) (history : List B) (layout : B) :
    let cache := history.foldl (fun c l => some (recomputeAx A face l c)) (none : Option (AxialCache B K))
    recomputeAx A face layout cache = ⟨layout, fun i => A (face i)⟩ := by
  have h : ∀ (cache : Option (AxialCache B K)), (∀ c, cache = some c → c.area = fun i => A (face i)) →
      ∀ l, recomputeAx A face l cache = ⟨l, fun i => A (face i)⟩ := by
    intro cache hc l
    cases cache with
    | none => rfl
    | some c =>
      simp only [recomputeAx]
      split
      · rename_i hl; cases c; simp only at hl; subst hl; simp only [AxialCache.mk.injEq, true_and]; exact hc _ rfl
      · rfl
  have hinv : ∀ (cache : Option (AxialCache B K)), (∀ c, cache = some c → c.area = fun i => A (face i)) →
      ∀ c, history.foldl (fun c l => some (recomputeAx A face l c)) cache = some c → c.area = fun i => A (face i) := by
    induction history with
    | nil => exact fun cache hc => hc
    | cons l ls ih =>
      intro cache hc
      refine ih _ fun c hs => ?_
      have hs : some (recomputeAx A face l cache) = some c := hs
      rw [h cache hc l] at hs
      cases hs; rfl
  exact h _ (hinv none (by simp)) layout

/-! ### The axial source term -/

section Source
variable {s : ℕ}

/-- A state of the mixture: positive values, `gamma` and `cp` belong to the specific gas constant of the mass fractions. -/
structure IsTubeGas (R : (Fin s → ℝ) → ℝ) (q : TubeGas s) : Prop where
  density_pos : 0 < q.density
  pressure_pos : 0 < q.pressure
  R_pos : 0 < R q.fractions
  gamma_gt : 1 < q.gamma
  mayer : q.cp - q.cp / q.gamma = R q.fractions

/-- **C87.** Velocity and composition are kept, density and pressure stay positive, and the change is isentropic: `p / ρ^γ` is the same before and after. -/
theorem axial_source_isentropic (R : (Fin s → ℝ) → ℝ) (caloric : (Fin s → ℝ) → ℝ → ℝ × ℝ) (geo : ℝ × ℝ) (dt : ℝ) {q : TubeGas s} (hq : IsTubeGas R q) :
    let q' := axialSourceCell R caloric geo dt q
    q'.velocity = q.velocity ∧ q'.fractions = q.fractions ∧ 0 < q'.density ∧ 0 < q'.pressure ∧
      q'.pressure / q'.density ^ q.gamma = q.pressure / q.density ^ q.gamma := by
  have h1 := hq.density_pos
  have h2 := hq.pressure_pos
  have h3 := hq.R_pos
  have hp : (axialSourceCell R caloric geo dt q).pressure = q.pressure * Real.exp (-q.gamma * (q.velocity * geo.2 / geo.1) * dt) := by
    simp only [axialSourceCell, hq.mayer]
    have := Real.exp_pos (-(q.velocity * geo.2 / geo.1) * dt)
    field_simp
  have hr : (axialSourceCell R caloric geo dt q).density = q.density * Real.exp (-(q.velocity * geo.2 / geo.1) * dt) := rfl
  refine ⟨rfl, rfl, ?_, ?_, ?_⟩
  · rw [hr]; positivity
  · rw [hp]; positivity
  · rw [hp, hr, Real.mul_rpow h1.le (Real.exp_pos _).le, ← Real.exp_mul]
    have h4 : 0 < q.density ^ q.gamma := Real.rpow_pos_of_pos h1 _
    have e : -(q.velocity * geo.2 / geo.1) * dt * q.gamma = -q.gamma * (q.velocity * geo.2 / geo.1) * dt := by ring
    rw [e]
    have := Real.exp_pos (-q.gamma * (q.velocity * geo.2 / geo.1) * dt)
    field_simp

/-- **C87.** The source term is the exact solution of the equations `dρ/dt = -ρ u A'/A` and `dp/dt = -γ p u A'/A` for frozen velocity and `γ`, and the identity for `dt = 0`. -/
theorem axial_source_exact (R : (Fin s → ℝ) → ℝ) (caloric : (Fin s → ℝ) → ℝ → ℝ × ℝ) (geo : ℝ × ℝ) {q : TubeGas s} (hq : IsTubeGas R q) (t : ℝ) :
    HasDerivAt (fun dt => (axialSourceCell R caloric geo dt q).density)
      (-(axialSourceCell R caloric geo t q).density * q.velocity * (geo.2 / geo.1)) t ∧
    HasDerivAt (fun dt => (axialSourceCell R caloric geo dt q).pressure)
      (-q.gamma * (axialSourceCell R caloric geo t q).pressure * q.velocity * (geo.2 / geo.1)) t ∧
    (axialSourceCell R caloric geo 0 q).density = q.density ∧ (axialSourceCell R caloric geo 0 q).pressure = q.pressure := by
  have h1 := hq.density_pos
  have h2 := hq.pressure_pos
  have h3 := hq.R_pos
  have hp : ∀ dt, (axialSourceCell R caloric geo dt q).pressure = q.pressure * Real.exp (-q.gamma * (q.velocity * geo.2 / geo.1) * dt) := by
    intro dt
    simp only [axialSourceCell, hq.mayer]
    have := Real.exp_pos (-(q.velocity * geo.2 / geo.1) * dt)
    field_simp
  have hr : ∀ dt, (axialSourceCell R caloric geo dt q).density = q.density * Real.exp (-(q.velocity * geo.2 / geo.1) * dt) := fun _ => rfl
  have hd : ∀ a b : ℝ, HasDerivAt (fun dt => a * Real.exp (b * dt)) (a * Real.exp (b * t) * b) t := by
    intro a b
    have := ((hasDerivAt_id t).const_mul b).exp.const_mul a
    simp only [id, mul_one] at this
    rw [mul_assoc]; exact this
  refine ⟨?_, ?_, ?_, ?_⟩
  · simp only [hr]
    convert hd q.density (-(q.velocity * geo.2 / geo.1)) using 1
    ring
  · simp only [hp]
    convert hd q.pressure (-q.gamma * (q.velocity * geo.2 / geo.1)) using 1
    ring
  · rw [hr]; simp
  · rw [hp]; simp

/-- **C87.** No change where the cross section does not vary or the gas is at rest. -/
theorem axial_source_trivial (R : (Fin s → ℝ) → ℝ) (caloric : (Fin s → ℝ) → ℝ → ℝ × ℝ) (geo : ℝ × ℝ) (dt : ℝ) {q : TubeGas s} (hq : IsTubeGas R q)
    (h : geo.2 = 0 ∨ q.velocity = 0) :
    (axialSourceCell R caloric geo dt q).density = q.density ∧ (axialSourceCell R caloric geo dt q).pressure = q.pressure := by
  have h0 : q.velocity * geo.2 / geo.1 = 0 := by rcases h with h | h <;> simp [h]
  have h1 := hq.density_pos
  have h3 := hq.R_pos
  simp only [axialSourceCell, hq.mayer, h0, neg_zero, zero_mul, mul_zero, Real.exp_zero, mul_one, true_and]
  field_simp

/-- **C87.** Two steps are the same as one long step, for a gas whose `gamma` and `cp` depend on the composition only. -/
theorem axial_source_steps (R : (Fin s → ℝ) → ℝ) (c : (Fin s → ℝ) → ℝ × ℝ) (geo : ℝ × ℝ) (dt₁ dt₂ : ℝ) {q : TubeGas s} (hq : IsTubeGas R q)
    (hc : c q.fractions = (q.gamma, q.cp)) :
    axialSourceCell R (fun y _ => c y) geo dt₂ (axialSourceCell R (fun y _ => c y) geo dt₁ q) = axialSourceCell R (fun y _ => c y) geo (dt₁ + dt₂) q := by
  have h1 := hq.density_pos
  have h2 := hq.pressure_pos
  have h3 := hq.R_pos
  have e1 := Real.exp_pos (-(q.velocity * geo.2 / geo.1) * dt₁)
  have e2 := Real.exp_pos (-(q.velocity * geo.2 / geo.1) * dt₂)
  ext i
  · simp only [axialSourceCell, mul_assoc, ← Real.exp_add]
    congr 2; ring
  · rfl
  · simp only [axialSourceCell, hc, hq.mayer, mul_add, Real.exp_add]
    field_simp
  · rfl
  · simp only [axialSourceCell, hc]
  · simp only [axialSourceCell, hc]

/-- **C87, disagreement.** The function passed to the constructor is called a diameter, but only a cross section gives the rate `A'/A`: with the diameter of a round tube the rate is half of it.
Here the exact logarithmic derivatives are compared. -/
theorem axial_source_needs_area (D : ℝ → ℝ) (x D' : ℝ) (hD : 0 < D x) (hd : HasDerivAt D D' x) :
    HasDerivAt (fun x => Real.pi / 4 * D x ^ 2) (Real.pi / 4 * (2 * D x * D')) x ∧
      Real.pi / 4 * (2 * D x * D') / (Real.pi / 4 * D x ^ 2) = 2 * (D' / D x) := by
  have hpi := Real.pi_pos
  constructor
  · have := (hd.pow 2).const_mul (Real.pi / 4)
    simpa using this
  · field_simp

/-- **C87, disagreement.** The area is taken at the right face of a cell and the slope is the one across this face: for a tube whose cross section grows linearly, the rate used for a cell is the exact rate at its
right face, which is smaller in absolute value than the one at its center. -/
theorem axial_source_shifted (a b xM dx : ℝ) (hb : b ≠ 0) (hdx : 0 < dx) (h0 : 0 < a + b * xM) (h1 : 0 < a + b * (xM + dx / 2)) :
    let geo := tubeGeometry (fun x => a + b * x) xM (xM + dx) dx
    geo.2 / geo.1 = b / (a + b * (xM + dx / 2)) ∧ geo.2 / geo.1 ≠ b / (a + b * xM) := by
  have e : (tubeGeometry (fun x => a + b * x) xM (xM + dx) dx).2 / (tubeGeometry (fun x => a + b * x) xM (xM + dx) dx).1 = b / (a + b * (xM + dx / 2)) := by
    simp only [tubeGeometry]
    have : a + b * (xM + 1 / 2 * dx) = a + b * (xM + dx / 2) := by ring
    rw [this]
    field_simp; ring
  refine ⟨e, ?_⟩
  rw [e]
  intro h
  rw [div_eq_div_iff h1.ne' h0.ne'] at h
  have := mul_left_cancel₀ hb h
  have h5 : b * (dx / 2) = 0 := by linarith
  rcases mul_eq_zero.1 h5 with h6 | h6
  · exact hb h6
  · linarith

/-- **C87, disagreement.** Without ghost cells every visited cell has its stored geometry; with `ngrow` ghost cells `AdvanceLevel` reads outside of the stored geometry. -/
theorem axial_source_reads [Field K] (area : K → K) (center : Int → K) (dx : K) (lo hi : Int) :
    (∀ x ∈ axialSourceReads area center dx lo hi 0, x.2 = some (tubeGeometry area (center x.1) (center (x.1 + 1)) dx)) ∧
    (∀ ngrow : ℕ, 0 < ngrow → lo ≤ hi → ∃ x ∈ axialSourceReads area center dx lo hi ngrow, x.2 = none) := by
  constructor
  · intro x hx
    simp only [axialSourceReads, List.mem_map] at hx
    obtain ⟨i, hi', rfl⟩ := hx
    rw [mem_loopRange] at hi'
    rw [if_pos (by push_cast at hi'; omega)]
  · intro n hn hle
    refine ⟨(lo - 1, none), ?_, rfl⟩
    simp only [axialSourceReads, List.mem_map]
    refine ⟨lo - 1, ?_, ?_⟩
    · rw [mem_loopRange]; omega
    · rw [if_neg (by omega)]

end Source

/-! ### Concrete cases -/

/-- A nozzle of two cells with areas 1, 2, 4: mass flows in at rate 1 on the left and out at rate 1/2 on the right. The content changes by `dt (1·1 - 4·(1/2))`. -/
example : let area : Int → ℚ := fun f => 2 ^ f.toNat
    let flux : Int → Bool → ℚ := fun f m => if m then 3 else 1 - f / 4
    let u : Int → Bool → ℚ := fun _ _ => 5
    let u' := axialUpdate true (1 / 10) (1 / 2) area (fun _ => 3) flux (0, 2) u
    (tubeVolume area (1 / 2) 0 * u' 0 false + tubeVolume area (1 / 2) 1 * u' 1 false
      = tubeVolume area (1 / 2) 0 * 5 + tubeVolume area (1 / 2) 1 * 5 + 1 / 10 * (1 * 1 - 4 * (1 / 2))) ∧ u' 0 true = 5 ∧ u' 0 false ≠ 5 := by
  decide +kernel

/-- Air that flows through a widening tube. -/
example : IsTubeGas (s := 1) (fun _ => 287) ⟨1, 10, 100000, fun _ => 1, 7 / 5, 287 * 7 / 2⟩ := by
  constructor <;> norm_num

end Fub
