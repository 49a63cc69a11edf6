import Verif.Spec.Feedback
import Verif.Props.Control
import Verif.Props.Average
import Mathlib.Tactic.FinCases

/-!
# C187: the control of the gas turbine is told what flows through the ends of the tubes
-/

namespace Fub
open Finset

/-- The local variable ends with the value of the last patch that contains the face. -/
theorem localFace_fold (val : FacePatch → ℤ → ℝ) (face : ℤ) (ps : List FacePatch) (acc : ℝ) :
    ps.foldl (fun acc p => if p.lo ≤ face ∧ face ≤ p.hi then val p face else acc) acc =
      ((ps.filter fun p => decide (p.lo ≤ face ∧ face ≤ p.hi)).getLast?.map fun p => val p face).getD acc := by
  induction ps generalizing acc with
  | nil => rfl
  | cons p ps ih =>
    rw [List.foldl_cons, ih, List.filter_cons]
    by_cases hp : p.lo ≤ face ∧ face ≤ p.hi
    · rw [if_pos hp, decide_eq_true hp]
      simp only [if_true, List.getLast?_cons]
      cases (ps.filter fun p => decide (p.lo ≤ face ∧ face ≤ p.hi)).getLast? <;> simp
    · rw [if_neg hp, decide_eq_false hp]
      simp only [Bool.false_eq_true, if_false]

/-- If exactly one patch of all processes contains the face, the result on every process is the value of this patch. -/
theorem reduceFace_unique (val : FacePatch → ℤ → ℝ) (face : ℤ) (procs : List (List FacePatch)) (p : FacePatch)
    (h : procs.flatten.filter (fun p => decide (p.lo ≤ face ∧ face ≤ p.hi)) = [p]) : reduceFace val face procs = val p face := by
  have hz : ∀ procs : List (List FacePatch), procs.flatten.filter (fun p => decide (p.lo ≤ face ∧ face ≤ p.hi)) = [] → reduceFace val face procs = 0 := by
    intro procs
    induction procs with
    | nil => intro _; rfl
    | cons ps procs ih =>
      intro h
      rw [List.flatten_cons, List.filter_append, List.append_eq_nil_iff] at h
      unfold reduceFace at ih ⊢
      rw [List.map_cons, List.sum_cons, ih h.2, localFace, localFace_fold, h.1]
      simp
  induction procs with
  | nil => simp at h
  | cons ps procs ih =>
    rw [List.flatten_cons, List.filter_append, List.append_eq_singleton_iff] at h
    rcases h with ⟨h1, h2⟩ | ⟨h1, h2⟩
    · have := ih h2
      unfold reduceFace at this ⊢
      rw [List.map_cons, List.sum_cons, this, localFace, localFace_fold, h1]
      simp
    · have := hz _ h2
      unfold reduceFace at this ⊢
      rw [List.map_cons, List.sum_cons, this, localFace, localFace_fold, h1]
      simp

theorem filter_of_countP {l : List FacePatch} {q r : FacePatch → Bool} (h : l.countP q = 1) (hqr : ∀ p ∈ l, q p = r p) {p : FacePatch} (hp : p ∈ l) (hr : r p = true) : l.filter r = [p] := by
  rw [List.countP_eq_length_filter, List.filter_congr hqr, List.length_eq_one_iff] at h
  obtain ⟨a, ha⟩ := h
  have : p ∈ l.filter r := List.mem_filter.2 ⟨hp, hr⟩
  rw [ha, List.mem_singleton] at this
  rw [ha, this]

/-- **C187 (inflow).** However the tube is split into patches and distributed to processes, every process gets the flux of the first face from the patch of the first cell. -/
theorem tube_inflow (val : FacePatch → ℤ → ℝ) (t : TubeEnds) (h : t.Partition) (p : FacePatch) (hp : p ∈ t.procs.flatten) (hc : p.lo ≤ t.first ∧ t.first < p.hi) :
    reduceFace val t.first t.procs = val p t.first := by
  refine reduceFace_unique _ _ _ _ (filter_of_countP (h.once t.first le_rfl h.dom) ?_ hp (decide_eq_true ⟨hc.1, hc.2.le⟩))
  intro q hq
  have := h.inside q hq
  exact decide_eq_decide.2 ⟨fun ⟨_, _⟩ => ⟨by omega, by omega⟩, fun ⟨_, _⟩ => ⟨by omega, by omega⟩⟩

/-- **C187 (outflow).** Every process gets the flux of the last face from the patch of the last cell. -/
theorem tube_outflow (val : FacePatch → ℤ → ℝ) (t : TubeEnds) (h : t.Partition) (p : FacePatch) (hp : p ∈ t.procs.flatten) (hc : p.lo ≤ t.last ∧ t.last < p.hi) :
    reduceFace val (t.last + 1) t.procs = val p (t.last + 1) := by
  refine reduceFace_unique _ _ _ _ (filter_of_countP (h.once t.last h.dom le_rfl) ?_ hp (decide_eq_true ⟨by omega, by omega⟩))
  intro q hq
  have := h.inside q hq
  exact decide_eq_decide.2 ⟨fun ⟨_, _⟩ => ⟨by omega, by omega⟩, fun ⟨_, _⟩ => ⟨by omega, by omega⟩⟩

/-- The patch of a cell. -/
theorem TubeEnds.Partition.patch {t : TubeEnds} (h : t.Partition) (c : ℤ) (h1 : t.first ≤ c) (h2 : c ≤ t.last) : ∃ p ∈ t.procs.flatten, p.lo ≤ c ∧ c < p.hi := by
  have := h.once c h1 h2
  have hpos : 0 < t.procs.flatten.countP (fun p => decide (p.lo ≤ c ∧ c < p.hi)) := by omega
  obtain ⟨p, hp, hd⟩ := List.countP_pos_iff.1 hpos
  exact ⟨p, hp, of_decide_eq_true hd⟩

/-- **C187 (several tubes).** The mean over the tubes, times the total area of the inlets, is the total flow. -/
theorem tube_mean (l : List ℝ) (hl : l ≠ []) (A : ℝ) : tubeMean l * (l.length * A) = (l.map fun x => x * A).sum := by
  have hn : (l.length : ℝ) ≠ 0 := by
    have := List.length_pos_iff.2 hl
    positivity
  unfold tubeMean
  rw [← List.sum_eq_foldl, List.sum_map_mul_right]
  simp only [List.map_id']
  field_simp

/-- **C187 (compressor plenum of several tubes).** If the area of the options is the area of all inlets together, the change of mass in the compressor plenum is what the compressor brings minus what
flows into all the tubes. -/
theorem plenum_mass (eq plenumEq : MixEq) (o : ControlOptions) (area : ℝ) (cells : IndexBox 2) (g : PlenumGrid) (tubes : List TubeEnds) (dt A : ℝ) (hdt : dt ≠ 0) (ht : tubes ≠ [])
    (hA : o.areaTubeInlet = tubes.length * A) (s s' : ControlState) (h : plenumFeedback eq plenumEq o area cells g tubes dt s = some s') :
    o.volumeCompressor * (s'.compressor.pressure / s'.compressor.temperature) - o.volumeCompressor * (s.compressor.pressure / s.compressor.temperature) =
      (s'.compressor.massFlowIn - (1 - dt) * s.compressor.massFlowIn) - dt * (tubes.map fun t => t.inRho * A).sum := by
  have hb := control_mass _ _ _ _ _ h hdt
  obtain ⟨-, -, -, e4, -⟩ := updatePlena_eq h
  have hm := tube_mean (tubes.map (·.inRho)) (by simpa using ht) A
  rw [List.length_map, List.map_map] at hm
  simp only at e4 hb
  rw [hA, hm] at e4
  simp only [Function.comp_def] at e4
  linarith

/-- **C187 (fuel).** The fuel consumption grows by what flows into the tube with the first species. -/
theorem tube_fuel (eq : MixEq) (o : ControlOptions) (c : ℝ) (t : TubeEnds) (ht : t.Partition) (p : FacePatch) (hp : p ∈ t.procs.flatten) (hc : p.lo ≤ t.first ∧ t.first < p.hi) (dt : ℝ)
    (s s' : ControlState) (h : tubeFeedback eq o c t dt s = some s') : s'.fuelConsumption = s.fuelConsumption + dt * (o.areaTubeInlet * p.spec t.first) := by
  obtain ⟨-, -, -, -, -, e, -⟩ := updatePlena_eq h
  rw [e, TubeEnds.inSpec, tube_inflow _ t ht p hp hc]
  ring

/-- **C187 (flows of several tubes).** Fuel and mass flow from all tubes are the total flows, if the areas of the options are the areas of all inlets and outlets together; the turbine takes what is measured in the plenum
and its state is the one measured there. -/
theorem plenum_flows (eq plenumEq : MixEq) (o : ControlOptions) (area : ℝ) (cells : IndexBox 2) (g : PlenumGrid) (tubes : List TubeEnds) (dt A B : ℝ) (ht : tubes ≠ [])
    (hA : o.areaTubeInlet = tubes.length * A) (hB : o.areaTubeOutlet = tubes.length * B) (s s' : ControlState) (h : plenumFeedback eq plenumEq o area cells g tubes dt s = some s') :
    s'.fuelConsumption = s.fuelConsumption + dt * (tubes.map fun t => t.inSpec * A).sum ∧
    s'.compressor.massFlowOut = (1 - dt) * s.compressor.massFlowOut + dt * (tubes.map fun t => t.inRho * A).sum ∧
    s'.turbine.massFlowIn = (1 - dt) * s.turbine.massFlowIn + dt * (tubes.map fun t => t.outRho * B).sum ∧
    s'.turbine.massFlowOut = (1 - dt) * s.turbine.massFlowOut + dt * turbineMassflow g cells area ∧
    s'.turbine.pressure = (turbineBoundaryState plenumEq g cells).pressure ∧ s'.turbine.temperature = (turbineBoundaryState plenumEq g cells).temperature := by
  obtain ⟨-, -, -, e4, -, e6, -, e8, e9, e10, e11, -⟩ := updatePlena_eq h
  have h1 := tube_mean (tubes.map (·.inRho)) (by simpa using ht) A
  have h2 := tube_mean (tubes.map (·.inSpec)) (by simpa using ht) A
  have h3 := tube_mean (tubes.map (·.outRho)) (by simpa using ht) B
  rw [List.length_map, List.map_map] at h1 h2 h3
  simp only [Function.comp_def] at h1 h2 h3
  simp only at e4 e6 e10 e11
  rw [hA, h1] at e4
  rw [hA, h2] at e6
  rw [hB, h3] at e10
  exact ⟨by rw [e6]; ring, e4, e10, e11, e8, e9⟩

/-- **C187 (energy of the turbine plenum).** The energy in the turbine plenum of a single tube grows by what flows through the last face of the tube and loses the enthalpy of what the turbine takes. -/
theorem tube_energy (eq : MixEq) (hv : eq.Valid) (o : ControlOptions) (hV : o.volumeTurbine ≠ 0) (c : ℝ) (t : TubeEnds) (ht : t.Partition) (p : FacePatch) (hp : p ∈ t.procs.flatten)
    (hc : p.lo ≤ t.last ∧ t.last < p.hi) (dt : ℝ) (s s' : ControlState) (h0 : s.turbine.pressure ≠ 0) (h : tubeFeedback eq o c t dt s = some s') :
    o.volumeTurbine * (s'.turbine.pressure / (eq.gamma - 1)) - o.volumeTurbine * (s.turbine.pressure / (eq.gamma - 1)) =
      dt * (o.areaTubeOutlet * p.rhoe (t.last + 1)) -
        (s'.turbine.massFlowOut - (1 - dt) * s.turbine.massFlowOut) * (eq.gamma / (eq.gamma - 1) * s.turbine.temperature) := by
  obtain ⟨g0, g1, g2⟩ := hv.pos
  unfold tubeFeedback feedbackStep at h
  obtain ⟨-, -, -, -, -, -, -, e8, -, -, e11, -⟩ := updatePlena_eq h
  rw [e11, e8]
  simp only [feedbackTurbine]
  rw [TubeEnds.outRhoe, tube_outflow _ t ht p hp hc, hv.minusOneInv, hv.minusOne]
  have hg : eq.gamma - 1 ≠ 0 := g1.ne'
  generalize hm : c * s.turbine.pressure / Real.sqrt s.turbine.temperature = m
  have hh : (s.turbine.pressure * (1 / (eq.gamma - 1)) + s.turbine.pressure) / (s.turbine.pressure / s.turbine.temperature) = eq.gamma / (eq.gamma - 1) * s.turbine.temperature := by
    rw [div_div_eq_mul_div]
    field_simp
    ring
  rw [hh]
  field_simp
  ring

/-! ### The whole machine keeps its mass -/

theorem sum_Icc_telescope (f : ℤ → ℝ) (a : ℤ) (n : ℕ) : ∑ i ∈ Icc a (a + n), (f i - f (i + 1)) = f a - f (a + n + 1) := by
  induction n with
  | zero => simp
  | succ n ih =>
    have : Icc a (a + (n + 1 : ℕ)) = insert (a + n + 1) (Icc a (a + n)) := by
      ext i; simp only [mem_Icc, mem_insert]; push_cast; omega
    rw [this, sum_insert (by simp only [mem_Icc]; omega), ih]
    push_cast
    ring_nf

/-- One step: plena and tube together change their mass by what is taken from the compressor and given to the turbine. -/
theorem coupled_step (eq : MixEq) (o : ControlOptions) (correlation A dx : ℝ) (hdx : dx ≠ 0) (hV : o.volumeTurbine ≠ 0) (hi : o.areaTubeInlet = A) (ho : o.areaTubeOutlet = A) (a b : ℤ)
    (x : TubeStep) (hx : x.Good a b) (c : Coupled) (s : ControlState) (h : tubeFeedback eq o correlation x.tube x.dt c.ctl = some s) (hp : s.turbine.pressure ≠ 0) :
    (c.next dx x s).mass o A dx a b - c.mass o A dx a b = ((c.next dx x s).taken - c.taken) - ((c.next dx x s).given - c.given) := by
  obtain ⟨h1, h2, hpart, hag, hdt⟩ := hx
  have hab : a ≤ b := by have := hpart.dom; omega
  obtain ⟨p, hpm, hp1, hp2⟩ := hpart.patch x.tube.first le_rfl hpart.dom
  obtain ⟨q, hqm, hq1, hq2⟩ := hpart.patch x.tube.last hpart.dom le_rfl
  have hin : x.tube.inRho = x.flux a := by
    rw [TubeEnds.inRho, tube_inflow _ _ hpart p hpm ⟨hp1, hp2⟩, hag p hpm _ hp1 hp2.le, h1]
  have hout : x.tube.outRho = x.flux (b + 1) := by
    rw [TubeEnds.outRho, tube_outflow _ _ hpart q hqm ⟨hq1, hq2⟩, hag q hqm _ (by omega) (by omega), h2]
  unfold tubeFeedback feedbackStep at h
  have hb := control_mass _ _ _ _ _ h hdt
  obtain ⟨-, -, -, e4, -, -, -, e8, e9, -, e11, -⟩ := updatePlena_eq h
  simp only at e4 e8 e9 e11 hb
  rw [hi, hin] at e4
  have hturb : o.volumeTurbine * (s.turbine.pressure / s.turbine.temperature) =
      o.volumeTurbine * (c.ctl.turbine.pressure / c.ctl.turbine.temperature) + (x.flux (b + 1) * A - (feedbackTurbine eq o correlation c.ctl.turbine x.tube.outRho x.tube.outRhoe x.dt).2) * x.dt := by
    rw [e8] at hp
    rw [e8, e9]
    simp only [feedbackTurbine] at hp ⊢
    rw [ho] at hp
    rw [hout, ho, div_div_cancel₀ hp]
    field_simp
  have htube : A * dx * ∑ i ∈ Icc a b, (c.rho i + x.dt / dx * (x.flux i - x.flux (i + 1))) = A * dx * ∑ i ∈ Icc a b, c.rho i + A * x.dt * (x.flux a - x.flux (b + 1)) := by
    have ht := sum_Icc_telescope x.flux a (b - a).toNat
    have hbn : a + ((b - a).toNat : ℤ) = b := by omega
    rw [hbn] at ht
    rw [sum_add_distrib, ← mul_sum, ht]
    field_simp
  simp only [Coupled.mass, Coupled.next]
  rw [htube, hturb]
  linarith

/-- **C187 (mass of the machine).** Over every history of time steps, the mass in the compressor plenum, the tube and the turbine plenum changes by what was taken from the compressor minus what was given
to the turbine, however the tube is split into patches. The inlet and the outlet have the cross section of the tube. -/
theorem coupled_mass (eq : MixEq) (o : ControlOptions) (correlation A dx : ℝ) (hdx : dx ≠ 0) (hV : o.volumeTurbine ≠ 0) (hi : o.areaTubeInlet = A) (ho : o.areaTubeOutlet = A) (a b : ℤ)
    (xs : List TubeStep) (hx : ∀ x ∈ xs, x.Good a b) (c c' : Coupled) (h : CoupledRun eq o correlation dx xs c c') :
    c'.mass o A dx a b - c.mass o A dx a b = (c'.taken - c.taken) - (c'.given - c.given) := by
  induction h with
  | nil => ring
  | cons h hp _ ih =>
    have h1 := coupled_step eq o correlation A dx hdx hV hi ho a b _ (hx _ List.mem_cons_self) _ _ h hp
    have h2 := ih fun x hm => hx x (List.mem_cons_of_mem _ hm)
    linarith

/-! ### The turbine behind the plenum -/

/-- The box of the faces is, as a box of numbers, the box of the cells. -/
theorem turbineFaces_eq (cells : IndexBox 2) : turbineFaces cells = turbineCells cells := by
  unfold turbineFaces turbineCells IndexBox.grow
  ext d
  · fin_cases d <;> simp
  · fin_cases d <;> simp

/-- **C187 (turbine), what is measured.** If no patch ends directly before the last column of the box, the mass flow to the turbine is the area times the mean flux of the faces at the *lower* side of the cells
in the last column. -/
theorem turbine_flux_partial (g : PlenumGrid) (cells : IndexBox 2) (area : ℝ) (hd : TilesDisjoint g.ranks.flatten) (hc : TilesCover (turbineCells cells) g.ranks.flatten)
    (hp : ∀ r ∈ g.ranks, ∀ b ∈ r, b.upper 0 ≠ cells.upper 0 - 1) :
    turbineMassflow g cells area = (∑ c ∈ (turbineCells cells).finset, g.flux c) / (turbineCells cells).finset.card * area := by
  rw [turbineMassflow, turbineFlux, turbineFaces_eq, ← average_mean g.flux _ _ hd hc]
  congr 1
  unfold averageState PlenumGrid.faceRanks
  rw [List.map_map]
  congr 1
  refine List.map_congr_left fun r hr => ?_
  simp only [Function.comp, localAverage, List.foldl_map]
  refine List.foldl_ext _ _ _ fun acc b hb => ?_
  have : (turbineCells cells).intersect (b.grow 0 0 1) = (turbineCells cells).intersect b := by
    have hne := hp r hr b hb
    unfold turbineCells IndexBox.intersect IndexBox.grow
    ext d
    · fin_cases d <;> simp
    · fin_cases d
      · simp; omega
      · simp
  rw [this]

/-- **C187 (turbine), the error.** The flow through the outer boundary is the one through the faces at the upper side of the last column. What the control is told differs from it by the change of the mass
that the step made in the last column. -/
theorem turbine_flux_offset (g : PlenumGrid) (cells : IndexBox 2) (area dx dt : ℝ) (hdx : dx ≠ 0) (hdt : dt ≠ 0) (old : Index 2 → ℝ) (hd : TilesDisjoint g.ranks.flatten)
    (hc : TilesCover (turbineCells cells) g.ranks.flatten) (hp : ∀ r ∈ g.ranks, ∀ b ∈ r, b.upper 0 ≠ cells.upper 0 - 1)
    (hstep : ∀ c ∈ (turbineCells cells).finset, g.density c = old c + dt / dx * (g.flux c - g.flux (shift c 0 1))) :
    turbineMassflow g cells area = (∑ c ∈ (turbineCells cells).finset, g.flux (shift c 0 1)) / (turbineCells cells).finset.card * area +
      area * dx / dt * ((∑ c ∈ (turbineCells cells).finset, (g.density c - old c)) / (turbineCells cells).finset.card) := by
  rw [turbine_flux_partial g cells area hd hc hp]
  have : ∑ c ∈ (turbineCells cells).finset, (g.density c - old c) = dt / dx * (∑ c ∈ (turbineCells cells).finset, g.flux c - ∑ c ∈ (turbineCells cells).finset, g.flux (shift c 0 1)) := by
    rw [← sum_sub_distrib, mul_sum]
    exact sum_congr rfl fun c hm => by rw [hstep c hm]; ring
  rw [this]
  field_simp
  ring

/-- A plenum of two columns on one process; the flux through the faces grows in the first direction. -/
def exPlenumGrid : PlenumGrid := ⟨[[⟨![0, 0], ![2, 2]⟩]], fun f => (f 0 : ℝ), fun _ => 1, fun _ _ => 0, fun _ => 1⟩

theorem exPlenumGrid_hyp : TilesDisjoint exPlenumGrid.ranks.flatten ∧ TilesCover (turbineCells ⟨![0, 0], ![2, 2]⟩) exPlenumGrid.ranks.flatten ∧
    (∀ r ∈ exPlenumGrid.ranks, ∀ b ∈ r, b.upper 0 ≠ (⟨![0, 0], ![2, 2]⟩ : IndexBox 2).upper 0 - 1) := by
  refine ⟨by simp [TilesDisjoint, exPlenumGrid], ?_, by simp [exPlenumGrid]⟩
  intro i hi
  refine ⟨⟨![0, 0], ![2, 2]⟩, by simp [exPlenumGrid], ?_⟩
  intro d
  have := hi d
  fin_cases d <;> simp [turbineCells] at this ⊢ <;> omega

theorem exPlenumGrid_cells : (turbineCells ⟨![0, 0], ![2, 2]⟩).finset = {![1, 0], ![1, 1]} := by
  rw [← forEachIndex_finset]
  decide +kernel

/-- **C187 (turbine) is false at the boundary.** The flux through the outer boundary is two everywhere, the control is told one. -/
theorem turbine_flux_wrong : turbineMassflow exPlenumGrid ⟨![0, 0], ![2, 2]⟩ 1 = 1 ∧
    ∀ c ∈ (turbineCells ⟨![0, 0], ![2, 2]⟩).finset, exPlenumGrid.flux (shift c 0 1) = 2 := by
  obtain ⟨h1, h2, h3⟩ := exPlenumGrid_hyp
  refine ⟨?_, ?_⟩
  · rw [turbine_flux_partial _ _ _ h1 h2 h3, exPlenumGrid_cells, sum_pair (by decide), card_pair (by decide)]
    norm_num [exPlenumGrid]
  · rw [exPlenumGrid_cells]
    intro c hc
    simp only [mem_insert, mem_singleton] at hc
    rcases hc with rfl | rfl <;> norm_num [exPlenumGrid, shift]

/-- **C187 (turbine) is false at patch boundaries.** If the last column of the box begins a patch, both patches at the face are counted: a flux of one becomes two. -/
theorem turbine_flux_doubled : turbineMassflow { exPlenumGrid with ranks := [[⟨![0, 0], ![1, 2]⟩], [⟨![1, 0], ![2, 2]⟩]], flux := fun _ => 1 } ⟨![0, 0], ![2, 2]⟩ 1 = 2 := by
  rw [turbineMassflow, turbineFlux, average_visited]
  have hv : visited (turbineFaces ⟨![0, 0], ![2, 2]⟩) (PlenumGrid.faceRanks { exPlenumGrid with ranks := [[⟨![0, 0], ![1, 2]⟩], [⟨![1, 0], ![2, 2]⟩]], flux := fun _ => 1 }).flatten =
      [![1, 0], ![1, 1], ![1, 0], ![1, 1]] := by
    simp only [PlenumGrid.faceRanks]
    decide +kernel
  have hn : boxNumPts (turbineFaces ⟨![0, 0], ![2, 2]⟩) = 2 := by decide +kernel
  rw [hv, hn]
  norm_num

/-- **C187 (turbine state).** The state at the turbine has the pressure of the mean conservative state; its temperature is the one the rest of the control works with, pressure over density, only if the
specific gas constant is one. -/
theorem turbine_state (eq : MixEq) (g : PlenumGrid) (cells : IndexBox 2) (hd : TilesDisjoint g.ranks.flatten) (hc : TilesCover (turbineCells cells) g.ranks.flatten) :
    let mean := fun (f : Index 2 → ℝ) => (∑ c ∈ (turbineCells cells).finset, f c) / (turbineCells cells).finset.card
    let w := turbineBoundaryState eq g cells
    w.pressure = mixPressureOfCons (s := 0) (t := 0) eq ⟨mean g.density, fun i => mean fun c => g.momentum c i, mean g.energy, Fin.elim0, Fin.elim0⟩ ∧
    w.temperature = w.pressure / mean g.density / eq.Rspec := by
  intro mean w
  refine ⟨?_, ?_⟩
  · simp only [w, turbineBoundaryState, mixPressureOfCons, average_mean _ _ _ hd hc]
    rfl
  · simp only [w, turbineBoundaryState, average_mean _ _ _ hd hc]
    rw [mul_one_div]

/-! ### Example -/

/-- A tube of four cells on two processes with the mass flux `1 + face`. -/
noncomputable def exTubeStep : TubeStep where
  tube := ⟨0, 3, [[⟨0, 2, fun f => 1 + f, fun _ => 1, fun _ => 3⟩], [⟨2, 4, fun f => 1 + f, fun _ => 1, fun _ => 3⟩]]⟩
  flux := fun f => 1 + f
  dt := 1 / 10

theorem exTubeStep_good : exTubeStep.Good 0 3 := by
  refine ⟨rfl, rfl, ⟨by simp [exTubeStep], by simp [exTubeStep], ?_⟩, ?_, by norm_num [exTubeStep]⟩
  · intro c h1 h2
    simp only [exTubeStep] at h1 h2
    have : c = 0 ∨ c = 1 ∨ c = 2 ∨ c = 3 := by omega
    rcases this with rfl | rfl | rfl | rfl <;> simp [exTubeStep]
  · simp [exTubeStep]

/-- Options of a machine with equal areas. -/
noncomputable def exMachine : ControlOptions := { exControl 1 with areaTubeOutlet := 1 }

theorem exMachine_run : ∃ c', CoupledRun (computeConstants 1 (7 / 5)) exMachine (1 / 4) (1 / 2) [exTubeStep] ⟨fun _ => 1, controlInit (computeConstants 1 (7 / 5)) exMachine, 0, 0⟩ c' := by
  have hr : compressorRatio exMachine (controlInit (computeConstants 1 (7 / 5)) exMachine).rpm = 1 := exControl_ratio 1 _
  obtain ⟨s, hs⟩ : ∃ s, tubeFeedback (computeConstants 1 (7 / 5)) exMachine (1 / 4) exTubeStep.tube exTubeStep.dt (controlInit (computeConstants 1 (7 / 5)) exMachine) = some s := by
    refine updatePlena_some _ _ _ _ ?_ (by rw [hr]; exact le_rfl)
    change (0 : ℝ) < 1 / 10
    norm_num
  refine ⟨_, CoupledRun.cons hs ?_ (CoupledRun.nil _)⟩
  have hs' := hs
  unfold tubeFeedback feedbackStep at hs'
  obtain ⟨-, -, -, -, -, -, -, e8, -⟩ := updatePlena_eq hs'
  rw [e8]
  have hout : exTubeStep.tube.outRhoe = 3 := by
    rw [TubeEnds.outRhoe, tube_outflow _ _ exTubeStep_good.part ⟨2, 4, fun f => 1 + f, fun _ => 1, fun _ => 3⟩ (by simp [exTubeStep]) (by simp [exTubeStep])]
  have hT : (controlInit (computeConstants 1 (7 / 5)) exMachine).turbine = ⟨2, 1, 0, 0, 0, false⟩ := rfl
  have hA : exMachine.areaTubeOutlet = 1 := rfl
  have hV : exMachine.volumeTurbine = 20 := rfl
  have hd : exTubeStep.dt = 1 / 10 := rfl
  rw [hT, hout]
  simp only [feedbackTurbine, hA, hV, hd, Real.sqrt_one]
  norm_num [computeConstants]

/-- A concrete machine meets the hypotheses of `coupled_mass`. -/
example : ∃ c' : Coupled, c'.mass exMachine 1 (1 / 2) 0 3 - (⟨fun _ => 1, controlInit (computeConstants 1 (7 / 5)) exMachine, 0, 0⟩ : Coupled).mass exMachine 1 (1 / 2) 0 3 = (c'.taken - 0) - (c'.given - 0) := by
  obtain ⟨c', h⟩ := exMachine_run
  exact ⟨c', coupled_mass _ exMachine (1 / 4) 1 (1 / 2) (by norm_num) (by change (20 : ℝ) ≠ 0; norm_num) rfl rfl 0 3 _ (by simpa using exTubeStep_good) _ _ h⟩

/-- A concrete update with two tubes meets the hypotheses of `plenum_mass` and `plenum_flows`. -/
example : ∃ s', plenumFeedback (computeConstants 1 (7 / 5)) (computeConstants 1 (7 / 5)) exMachine 1 ⟨![0, 0], ![2, 2]⟩ exPlenumGrid [exTubeStep.tube, exTubeStep.tube] (1 / 10)
    (controlInit (computeConstants 1 (7 / 5)) exMachine) = some s' ∧ exMachine.areaTubeInlet = ([exTubeStep.tube, exTubeStep.tube] : List TubeEnds).length * (1 / 2) := by
  have hr : compressorRatio exMachine (controlInit (computeConstants 1 (7 / 5)) exMachine).rpm = 1 := exControl_ratio 1 _
  obtain ⟨s, hs⟩ := updatePlena_some (computeConstants 1 (7 / 5)) exMachine
    ⟨turbineMassflow exPlenumGrid ⟨![0, 0], ![2, 2]⟩ 1, turbineBoundaryState (computeConstants 1 (7 / 5)) exPlenumGrid ⟨![0, 0], ![2, 2]⟩,
      tubeMean ([exTubeStep.tube, exTubeStep.tube].map (·.inRho)), tubeMean ([exTubeStep.tube, exTubeStep.tube].map (·.inSpec)), tubeMean ([exTubeStep.tube, exTubeStep.tube].map (·.outRho)), 1 / 10⟩
    (controlInit (computeConstants 1 (7 / 5)) exMachine) (by change (0 : ℝ) < 1 / 10; norm_num) (by rw [hr]; exact le_rfl)
  refine ⟨s, hs, ?_⟩
  change (1 : ℝ) = _
  norm_num

/-- A concrete tube meets the hypotheses of `tube_inflow`. -/
example : exTubeStep.tube.inRho = 1 := by
  rw [TubeEnds.inRho, tube_inflow _ _ exTubeStep_good.part ⟨0, 2, fun f => 1 + f, fun _ => 1, fun _ => 3⟩ (by simp [exTubeStep]) (by simp [exTubeStep])]
  norm_num [exTubeStep]

end Fub
