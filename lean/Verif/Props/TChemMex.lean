import Verif.Props.TChem

/-!
C199: the Matlab interface of the TChem reactor.
-/

namespace Fub
open Finset

section
variable {n : ℕ} {K : Type} [Field K] [LinearOrder K] [IsStrictOrderedRing K]

/-- The state of a reactor between two cells. -/
structure MexReady (L : TcLib n K) (r : TcReactor n K) : Prop where
  cache : TcCacheOk L r
  libP : r.libP ≠ 0

omit [IsStrictOrderedRing K] in
theorem tc_update_fields (L : TcLib n K) (r : TcReactor n K) :
    (tcUpdateThermo L r).Y = r.Y ∧ (tcUpdateThermo L r).density = r.density ∧ (tcUpdateThermo L r).temperature = r.temperature ∧
      (tcUpdateThermo L r).pressure = r.pressure ∧ (tcUpdateThermo L r).thermoT = r.temperature := by
  unfold tcUpdateThermo
  split
  · exact ⟨rfl, rfl, rfl, rfl, rfl⟩
  · rename_i h
    push Not at h
    exact ⟨rfl, rfl, rfl, rfl, h⟩

omit [IsStrictOrderedRing K] in
theorem tc_update_cache_of (L : TcLib n K) (r : TcReactor n K) (h : r.thermoT ≠ r.temperature) : TcCacheOk L (tcUpdateThermo L r) := by
  unfold tcUpdateThermo
  rw [if_pos h]
  exact ⟨rfl, rfl, rfl⟩

omit [IsStrictOrderedRing K] in
theorem tc_update_cache (L : TcLib n K) (r : TcReactor n K) (h : TcCacheOk L r) : TcCacheOk L (tcUpdateThermo L r) := by
  unfold tcUpdateThermo
  split
  · exact ⟨rfl, rfl, rfl⟩
  · exact h

omit [IsStrictOrderedRing K] in
theorem tc_set_density_keeps (L : TcLib n K) (r : TcReactor n K) (rho : K) (hR : L.R ≠ 0) (hp : r.libP ≠ 0) (hY : (∑ i, r.Y i / L.mass i) ≠ 0) :
    (tcSetDensity L r rho).density = rho := by
  unfold tcSetDensity tcSetTemperature tcTmix tcRho tcMolarSum
  simp only
  generalize (∑ i, r.Y i / L.mass i) = s at *
  by_cases h : rho = 0
  · simp [h]
  · field_simp

theorem tc_clip_molar_pos (L : TcLib n K) (hL : TcDataOk L) (X : Fin (n + 1) → K) (h : 0 < ∑ j, max 0 (X j)) : 0 < ∑ i, tcClip X i / L.mass i := by
  obtain ⟨i, _, hi⟩ : ∃ i ∈ (Finset.univ : Finset (Fin (n + 1))), 0 < tcClip X i := by
    by_contra hne
    push Not at hne
    have : ∑ i, tcClip X i ≤ 0 := sum_nonpos fun i hi => hne i hi
    rw [tc_clip_sum X h] at this
    exact absurd this (not_le.2 zero_lt_one)
  exact sum_pos' (fun j _ => div_nonneg (tc_clip_nonneg X j) (hL.2 j).le) ⟨i, mem_univ _, div_pos hi (hL.2 i)⟩

/-- C199. The mass fractions with which a cell reacts: the partial densities divided by the density, the last species has the rest. -/
theorem mex_fractions (c : MexCell n K) (hrho : 0 < c.density) (hs : ∀ s, 0 ≤ c.species s) (hsum : (∑ s, c.species s) ≤ c.density) :
    (∀ s : Fin n, tcClip (mexFractions c) s.castSucc = c.species s / c.density) ∧
      tcClip (mexFractions c) (Fin.last n) = 1 - ∑ s, c.species s / c.density := by
  have h1 : ∀ s : Fin n, max 0 (mexFractions c s.castSucc) = c.species s := by
    intro s
    have : mexFractions c s.castSucc = c.species s := by simp [mexFractions]
    rw [this, max_eq_right (hs s)]
  have h2 : max 0 (mexFractions c (Fin.last n)) = c.density - ∑ s, c.species s := by
    have : mexFractions c (Fin.last n) = max 0 (c.density - ∑ s, c.species s) := by simp [mexFractions]
    rw [this, max_eq_right (le_max_left _ _), max_eq_right (by linarith)]
  have h3 : (∑ j, max 0 (mexFractions c j)) = c.density := by
    rw [Fin.sum_univ_castSucc, h2, Finset.sum_congr rfl fun s _ => h1 s]
    ring
  refine ⟨fun s => ?_, ?_⟩
  · unfold tcClip
    rw [h3, h1]
  · unfold tcClip
    rw [h3, h2, ← Finset.sum_div, sub_div, div_self hrho.ne']

/-- What a cell of `Advance_` leaves in the reactor and in the output. -/
theorem mex_cell_core (L : TcLib n K) (hL : TcDataOk L) (ode : TcOde n K) (ho : TcOdeOk L ode) (dt tol : K) (r r' : TcReactor n K) (c c' : MexCell n K)
    (hr : MexReady L r) (hrho : c.density ≠ 0) (h0 : c'.temperature ≠ 0) (hT : ∀ T, setEnergy (fun T => ∑ i, tcClip (mexFractions c) i * L.u T i)
      (fun T => ∑ i, tcClip (mexFractions c) i * L.cp T i - (∑ i, tcClip (mexFractions c) i / L.mass i) * L.R)
      ((c.energy - 1 / 2 * c.momentum * c.momentum / c.density) / c.density) tol 300 = some T → T ≠ 0)
    (e : mexAdvanceCell L ode dt tol r c = some (r', c')) :
    MexReady L r' ∧ r'.thermoT = c'.temperature ∧ MexReacted L ode dt tol c c' ∧ (c'.temperature ≠ r.thermoT → MexReactedEnergy L ode dt tol c c') := by
  simp only [mexAdvanceCell, Option.bind_eq_some_iff] at e
  obtain ⟨r1, e1, r2, e2, r3, e3, e4⟩ := e
  simp only [tcSetMassFractions] at e1
  split at e1
  case isFalse => cases e1
  rename_i hpos
  cases e1
  have hs := (tc_clip_molar_pos L hL _ hpos).ne'
  generalize hY : tcClip (mexFractions c) = Y at *
  obtain ⟨T, eT, rfl⟩ := tc_set_energy_some L _ r2 _ tol e2
  have hT0 := hT T eT
  have hd := tc_set_density_keeps L { r with Y := Y, density := tcRho L r.libP r.slot Y, moles := tcMs2Ml L Y } c.density hL.1 hr.libP hs
  obtain ⟨k1, k2, k3, k4, k5⟩ := tc_set_energy_state L _ _ _ tol e2 hL.1 hT0 hs
  generalize hr2 : tcSetTemperature L _ T = r2 at *
  have q1 : r2.slot = T := by rw [← hr2]; rfl
  have q2 : r2.thermoT = r.thermoT := by rw [← hr2]; rfl
  have q3 : TcCacheOk L r2 := by rw [← hr2]; exact hr.cache
  have q4 : r2.temperature = T := by rw [← hr2]; rfl
  have q5 : r2.libP = r2.pressure := by rw [← hr2]; rfl
  have k1' : r2.density = c.density := k1.trans hd
  have k2' : r2.Y = Y := k2
  have k4' : r2.pressure = c.density * L.R * (∑ i, Y i / L.mass i) * T := by
    rw [k4, hd, q4]
    rfl
  have hp2 : r2.libP ≠ 0 := by
    rw [q5, k4']
    exact mul_ne_zero (mul_ne_zero (mul_ne_zero hrho hL.1) hs) hT0
  -- the state after the reaction
  obtain ⟨T', Y', a1, a2, a3, a4, a5, a6, a7, a8⟩ : ∃ T' Y', (0 < dt → ∃ o, ode c.density T Y dt = some o ∧ T' = o.T ∧ Y' = o.Y) ∧
      (¬ 0 < dt → T' = T ∧ Y' = Y) ∧ r3.density = c.density ∧ r3.temperature = T' ∧ r3.Y = Y' ∧
      r3.pressure = c.density * L.R * (∑ i, Y' i / L.mass i) * T' ∧ (r3.thermoT = r.thermoT ∧ TcCacheOk L r3) ∧ r3.libP = r3.pressure := by
    by_cases hdt : 0 < dt
    · obtain ⟨o, b1, b2, b3, b4, b5⟩ := tc_advance_state L hL.1 ode ho r2 r3 dt hdt hp2 (by rw [k1']; exact hrho) e3
      rw [k1', q1, k2'] at b1
      rw [k1'] at b2 b5
      refine ⟨o.T, o.Y, fun _ => ⟨o, b1, rfl, rfl⟩, fun h => absurd hdt h, b2, b3, b4, b5, ?_⟩
      unfold tcAdvance at e3
      rw [if_pos hdt, k1', q1, k2', b1] at e3
      cases e3
      exact ⟨⟨q2, q3⟩, rfl⟩
    · unfold tcAdvance at e3
      rw [if_neg hdt] at e3
      cases e3
      exact ⟨T, Y, fun h => absurd h hdt, fun _ => ⟨rfl, rfl⟩, k1', q4, k2', k4', ⟨q2, q3⟩, q5⟩
  obtain ⟨f1, f2, f3, f4, f5⟩ := tc_update_fields L r3
  have fc := tc_update_cache L r3 a7.2
  have hc' := (Prod.mk.inj (Option.some.inj e4)).2
  have hr' := (Prod.mk.inj (Option.some.inj e4)).1
  have t1 : c'.temperature = T' := by rw [← hc']; exact f3.trans a4
  have hT' : T' ≠ 0 := t1 ▸ h0
  subst hr'
  have g1 : (tcUpdateThermo L r3).thermoT = T' := f5.trans a4
  have g2 : (tcUpdateThermo L r3).Y = Y' := f1.trans a5
  have g3 : (tcUpdateThermo L r3).density = c.density := f2.trans a3
  have g4 : (tcUpdateThermo L r3).pressure = c.density * L.R * (∑ i, Y' i / L.mass i) * T' := f4.trans a6
  obtain ⟨fc1, fc2, fc3⟩ := fc
  rw [g1] at fc1 fc2 fc3
  have hY' : (∑ i, Y' i / L.mass i) ≠ 0 := by
    by_cases hdt : 0 < dt
    · obtain ⟨o, b1, b2, b3⟩ := a1 hdt
      obtain ⟨⟨es, w1⟩, w2⟩ := ho _ _ _ _ _ b1
      rw [b3]
      exact (w2 (o.T, o.Y) (by rw [w1]; simp)).2
    · rw [(a2 hdt).2]
      exact hs
  refine ⟨⟨⟨by rw [g1]; exact fc1, by rw [g1]; exact fc2, by rw [g1]; exact fc3⟩, ?_⟩, by rw [g1, t1], ?_, ?_⟩
  · have : (tcUpdateThermo L r3).libP = r3.pressure := by
      unfold tcUpdateThermo
      split
      · rfl
      · exact a8
    rw [this, a6]
    exact mul_ne_zero (mul_ne_zero (mul_ne_zero hrho hL.1) hY') hT'
  · unfold MexReacted
    rw [hY]
    refine ⟨T, T', Y', eT, a1, a2, ?_, ?_, t1, ?_, ?_, ?_, ?_⟩
    · rw [← hc']; exact g3
    · rw [← hc']
      show (tcUpdateThermo L r3).density * (c.momentum / c.density) = _
      rw [g3, mul_div_cancel₀ _ hrho]
    · rw [← hc']; exact g4
    · rw [← hc']
      show tcGetCp (tcUpdateThermo L r3) = _
      unfold tcGetCp
      rw [g2, fc1]
    · rw [← hc']
      show tcGetCv (tcUpdateThermo L r3) = _
      unfold tcGetCv
      rw [g2, fc2]
    · intro s
      rw [← hc']
      show (tcUpdateThermo L r3).density * tcClip (tcUpdateThermo L r3).Y s.castSucc = _
      rw [g2, g3]
      rfl
  · intro hne
    unfold MexReactedEnergy
    rw [hY]
    refine ⟨T, T', Y', eT, a1, a2, ?_⟩
    rw [← hc']
    show (tcUpdateThermo L r3).density * (tcGetEnergy (tcUpdateThermo L r3) + 1 / 2 * (c.momentum / c.density) * (c.momentum / c.density)) = _
    rw [g3]
    have : (tcUpdateThermo L r3).us = L.u T' := by
      unfold tcUpdateThermo
      rw [if_pos]
      · show L.u r3.temperature = _
        rw [a4]
      · rw [a7.1, a4, ← t1]
        exact hne.symm
    unfold tcGetEnergy
    rw [g2, this]

/-- What the cells given to `Advance_` must meet: a density, and an energy that does not belong to the temperature zero. -/
def MexCellOk (L : TcLib n K) (tol : K) (c : MexCell n K) : Prop :=
  c.density ≠ 0 ∧ ∀ T, setEnergy (fun T => ∑ i, tcClip (mexFractions c) i * L.u T i)
      (fun T => ∑ i, tcClip (mexFractions c) i * L.cp T i - (∑ i, tcClip (mexFractions c) i / L.mass i) * L.R)
      ((c.energy - 1 / 2 * c.momentum * c.momentum / c.density) / c.density) tol 300 = some T → T ≠ 0

/-- **C199** `Advance_` treats each cell on its own: density and momentum are kept, and temperature, pressure, fractions and heat capacities are those after a reaction at constant volume from the given state of this cell, whatever the reactor and the other cells are. The energy is missing, see `mex_equal_cells_differ`. -/
theorem mex_advance_partial (L : TcLib n K) (hL : TcDataOk L) (ode : TcOde n K) (ho : TcOdeOk L ode) (dt tol : K) (cs : List (MexCell n K)) :
    ∀ (r r' : TcReactor n K) (out : List (MexCell n K)), TcCacheOk L r → r.libP ≠ 0 → (∀ c ∈ cs, MexCellOk L tol c) → (∀ c ∈ out, c.temperature ≠ 0) →
      mexAdvance L ode dt tol r cs = some (r', out) → List.Forall₂ (MexReacted L ode dt tol) cs out := by
  induction cs with
  | nil =>
    intro r r' out _ _ _ _ e
    cases e
    exact List.Forall₂.nil
  | cons c cs ih =>
    intro r r' out h1 h2 hc hout e
    simp only [mexAdvance, Option.bind_eq_some_iff] at e
    obtain ⟨⟨r1, c1⟩, e1, ⟨r2, o2⟩, e2, e3⟩ := e
    cases e3
    have hc1 := hc c (by simp)
    obtain ⟨w1, w2, w3, w4⟩ := mex_cell_core L hL ode ho dt tol r r1 c c1 ⟨h1, h2⟩ hc1.1 (hout c1 (by simp)) hc1.2 e1
    exact List.Forall₂.cons w3 (ih r1 _ o2 w1.cache w1.libP (fun c' h => hc c' (by simp [h])) (fun c' h => hout c' (by simp [h])) e2)

/-- **C199** The energy is right as well if no two neighbouring cells end with the same temperature (and the first one not with the temperature of the last update before). -/
theorem mex_advance_energy_partial (L : TcLib n K) (hL : TcDataOk L) (ode : TcOde n K) (ho : TcOdeOk L ode) (dt tol : K) (cs : List (MexCell n K)) :
    ∀ (r r' : TcReactor n K) (out : List (MexCell n K)), TcCacheOk L r → r.libP ≠ 0 → (∀ c ∈ cs, MexCellOk L tol c) → (∀ c ∈ out, c.temperature ≠ 0) →
      (r.thermoT :: out.map (·.temperature)).IsChain (· ≠ ·) →
      mexAdvance L ode dt tol r cs = some (r', out) → List.Forall₂ (MexReactedEnergy L ode dt tol) cs out := by
  induction cs with
  | nil =>
    intro r r' out _ _ _ _ _ e
    cases e
    exact List.Forall₂.nil
  | cons c cs ih =>
    intro r r' out h1 h2 hc hout hch e
    simp only [mexAdvance, Option.bind_eq_some_iff] at e
    obtain ⟨⟨r1, c1⟩, e1, ⟨r2, o2⟩, e2, e3⟩ := e
    cases e3
    have hc1 := hc c (by simp)
    obtain ⟨w1, w2, w3, w4⟩ := mex_cell_core L hL ode ho dt tol r r1 c c1 ⟨h1, h2⟩ hc1.1 (hout c1 (by simp)) hc1.2 e1
    rw [List.map_cons, List.isChain_cons_cons] at hch
    refine List.Forall₂.cons (w4 hch.1.symm) (ih r1 _ o2 w1.cache w1.libP (fun c' h => hc c' (by simp [h])) (fun c' h => hout c' (by simp [h])) ?_ e2)
    rw [w2]
    exact hch.2

/-- **C199** `SetTPX_` gives each cell the state of its temperature, pressure and mole fractions at rest, if the temperature differs from the one of the last update or no `Advance_` came since. -/
theorem mex_set_tpx_partial (L : TcLib n K) (hL : TcDataOk L) (r r' : TcReactor n K) (T p : K) (X : Fin (n + 1) → K) (c : MexCell n K)
    (hr : TcCacheOk L r) (hu : T ≠ r.thermoT ∨ r.us = L.u r.thermoT) (e : mexSetTPX L r T p X = some (r', c)) :
    let x := fun i => max 0 (X i) / ∑ j, max 0 (X j)
    let W := ∑ j, x j * L.mass j
    let Y := fun i => x i * L.mass i / W
    c.temperature = T ∧ c.pressure = p ∧ c.density = p * W / (L.R * T) ∧ c.momentum = 0 ∧ c.energy = c.density * ∑ i, Y i * L.u T i ∧
      c.cp = ∑ i, Y i * L.cp T i ∧ c.cv = ∑ i, Y i * L.cv T i ∧ ∀ s, c.species s = c.density * Y s.castSucc := by
  simp only [mexSetTPX, Option.bind_eq_some_iff] at e
  obtain ⟨r1, e1, e2⟩ := e
  simp only [tcSetMoleFractions] at e1
  split at e1
  case isFalse => cases e1
  rename_i hpos
  cases e1
  have hsum := tc_clip_sum X hpos
  have hW := tc_mean_pos L hL _ (tc_clip_nonneg X) hsum
  have hclip : tcClip (tcMl2Ms L (tcClip X)) = tcMl2Ms L (tcClip X) := by
    have hn : ∀ i, 0 ≤ tcMl2Ms L (tcClip X) i := fun i => div_nonneg (mul_nonneg (tc_clip_nonneg X i) (hL.2 i).le) hW.le
    have hone : ∑ j, max 0 (tcMl2Ms L (tcClip X) j) = 1 := by
      rw [sum_congr rfl fun j _ => max_eq_right (hn j)]
      unfold tcMl2Ms
      rw [← Finset.sum_div]
      exact div_self hW.ne'
    funext i
    show max 0 (tcMl2Ms L (tcClip X) i) / ∑ j, max 0 (tcMl2Ms L (tcClip X) j) = _
    rw [hone, div_one, max_eq_right (hn i)]
  have hrho : ∀ T, tcRho L p T (tcMl2Ms L (tcClip X)) = p * (∑ j, tcClip X j * L.mass j) / (L.R * T) := fun T => (tc_rho_ml L hL _ hsum p T).symm
  generalize hr1 : tcSetTemperature L _ T = r1 at e2
  have d1 : r1.Y = tcMl2Ms L (tcClip X) := by rw [← hr1]; rfl
  have d2 : r1.temperature = T := by rw [← hr1]; rfl
  have d3 : r1.pressure = p := by rw [← hr1]; rfl
  have d4 : r1.density = p * (∑ j, tcClip X j * L.mass j) / (L.R * T) := by rw [← hrho T, ← hr1]; rfl
  have d5 : r1.thermoT = r.thermoT := by rw [← hr1]; rfl
  have d6 : TcCacheOk L r1 := by rw [← hr1]; exact hr
  have d7 : r1.us = r.us := by rw [← hr1]; rfl
  obtain ⟨f1, f2, f3, f4, f5⟩ := tc_update_fields L r1
  obtain ⟨fc1, fc2, _⟩ := tc_update_cache L r1 d6
  rw [f5, d2] at fc1 fc2
  have fu : (tcUpdateThermo L r1).us = L.u T := by
    unfold tcUpdateThermo
    split
    · show L.u r1.temperature = _
      rw [d2]
    · rename_i h
      push Not at h
      rw [d5, d2] at h
      rcases hu with hu | hu
      · exact absurd h.symm hu
      · rw [d7, hu, h]
  have hc := (Prod.mk.inj (Option.some.inj e2)).2
  have v1 : c.density = p * (∑ j, tcClip X j * L.mass j) / (L.R * T) := by
    rw [← hc]
    exact f2.trans d4
  refine ⟨?_, ?_, v1, ?_, ?_, ?_, ?_, ?_⟩
  · rw [← hc]; exact f3.trans d2
  · rw [← hc]; exact f4.trans d3
  · rw [← hc]; exact mul_zero _
  · rw [v1, ← hc]
    show (tcUpdateThermo L r1).density * (tcGetEnergy (tcUpdateThermo L r1) + 1 / 2 * 0 * 0) = _
    unfold tcGetEnergy
    rw [f2, d4, f1, d1, fu, mul_zero, add_zero]
    rfl
  · rw [← hc]
    show tcGetCp (tcUpdateThermo L r1) = _
    unfold tcGetCp
    rw [f1, d1, fc1]
    rfl
  · rw [← hc]
    show tcGetCv (tcUpdateThermo L r1) = _
    unfold tcGetCv
    rw [f1, d1, fc2]
    rfl
  · intro s
    rw [v1, ← hc]
    show (tcUpdateThermo L r1).density * tcClip (tcUpdateThermo L r1).Y s.castSucc = _
    rw [f2, d4, f1, d1, hclip]
    rfl

omit [LinearOrder K] [IsStrictOrderedRing K] in
/-- **C199** (disagreement) `GetEnthalpies_` returns the same numbers for all temperatures: those of the last update. -/
theorem mex_enthalpies_ignore (L : TcLib n K) (r : TcReactor n K) (T : K) (h : TcCacheOk L r) : (mexEnthalpies L r T).2 = L.h r.thermoT := h.2.2

end

/-! ## The mechanism -/

/-- **C199** (disagreement) Once a mechanism was chosen, each further call of `SetMechanism_` ends with an exception, and the reactor keeps the first mechanism for ever. -/
theorem mex_mechanism_first (first : String) (h : first ∈ ["Zhao2008Dme", "AramcoMech_DMEonly_74spec", "AramcoMech_woC3C4_91spec"]) (names : List String) :
    let s0 : MexMechanism := { chosen := none, reactor := none, isInit := false }
    let s1 := mexSetMechanism s0 first
    s1.2 = true ∧ s1.1.reactor = some first ∧
      (names.foldl (fun s m => (mexSetMechanism s m).1) s1.1).reactor = some first ∧
      ∀ m, (mexSetMechanism (names.foldl (fun s m => (mexSetMechanism s m).1) s1.1) m).2 = false := by
  have step : ∀ (s : MexMechanism) (m : String), s.isInit = true →
      (mexSetMechanism s m).1.isInit = true ∧ (mexSetMechanism s m).1.reactor = s.reactor ∧ (mexSetMechanism s m).2 = false := by
    intro s m hs
    by_cases hm : m ∈ ["Zhao2008Dme", "AramcoMech_DMEonly_74spec", "AramcoMech_woC3C4_91spec"]
    · simp only [mexSetMechanism, if_pos hm, if_pos hs]
      exact ⟨hs, trivial, trivial⟩
    · simp only [mexSetMechanism, if_neg hm]
      exact ⟨hs, trivial, trivial⟩
  have key : ∀ (names : List String) (s : MexMechanism), s.isInit = true → s.reactor = some first →
      (names.foldl (fun s m => (mexSetMechanism s m).1) s).isInit = true ∧ (names.foldl (fun s m => (mexSetMechanism s m).1) s).reactor = some first := by
    intro names
    induction names with
    | nil => intro s h1 h2; exact ⟨h1, h2⟩
    | cons m ms ih =>
      intro s h1 h2
      have hk := step s m h1
      exact ih _ hk.1 (hk.2.1.trans h2)
  have e1 : mexSetMechanism { chosen := none, reactor := none, isInit := false } first = ({ chosen := some first, reactor := some first, isInit := true }, true) := by
    unfold mexSetMechanism
    rw [if_pos h]
    rfl
  simp only [e1]
  obtain ⟨k1, k2⟩ := key names { chosen := some first, reactor := some first, isInit := true } rfl rfl
  exact ⟨trivial, trivial, k2, fun m => (step _ m k1).2.2⟩

/-- The mechanism that was chosen last is then not the one of the reactor. -/
example : let s1 := (mexSetMechanism { chosen := none, reactor := none, isInit := false } "Zhao2008Dme").1
    let s2 := (mexSetMechanism s1 "AramcoMech_DMEonly_74spec").1
    s2.chosen = some "AramcoMech_DMEonly_74spec" ∧ s2.reactor = some "Zhao2008Dme" := by decide +kernel

/-! ## Witnesses -/

/-- A cell with density one at 350 K, at rest. -/
def mexSampleCell (e : ℚ) : MexCell 0 ℚ := { density := 1, momentum := 0, energy := e, species := Fin.elim0, cv := 1, cp := 2, temperature := e, pressure := e }

/-- A cell with two species: a quarter of the mass is the stored one. -/
example : let c : MexCell 1 ℚ := { density := 2, momentum := 0, energy := 1, species := ![1 / 2], cv := 1, cp := 2, temperature := 1, pressure := 1 }
    0 < c.density ∧ (∀ s, 0 ≤ c.species s) ∧ (∑ s, c.species s) ≤ c.density ∧ tcClip (mexFractions c) 0 = 1 / 4 ∧ tcClip (mexFractions c) 1 = 3 / 4 := by
  decide +kernel

/-- **C199** (disagreement) Two equal cells next to each other: the reaction heats both from 350 K to 1350 K, but only the first one gets the energy at 1350 K, the second one keeps the energy at 350 K. -/
theorem mex_equal_cells_differ : ∃ rs, mexAdvance tcSample tcHeatSafe 1 (1 / 1000) (tcUpdateThermo tcSample (tcInit tcSample 7 1)) [mexSampleCell 350, mexSampleCell 350] = some rs ∧
    rs.2.map (·.temperature) = [1350, 1350] ∧ rs.2.map (·.energy) = [1350, 350] := by
  exact tc_opt_ex _ _ (by decide +kernel)

/-- The hypotheses of `mex_advance_partial` and `mex_advance_energy_partial` hold for two cells with different energies. -/
theorem mexSample_run : ∃ rs, mexAdvance tcSample tcHeatSafe 1 (1 / 1000) (tcUpdateThermo tcSample (tcInit tcSample 7 1)) [mexSampleCell 350, mexSampleCell 360] = some rs ∧
    rs.2.map (·.temperature) = [1350, 1360] ∧ rs.2.map (·.energy) = [1350, 1360] ∧ (∀ c ∈ rs.2, c.temperature ≠ 0) ∧
    ((tcUpdateThermo tcSample (tcInit tcSample 7 1)).thermoT :: rs.2.map (·.temperature)).IsChain (· ≠ ·) := by
  exact tc_opt_ex _ _ (by decide +kernel)

theorem mexSampleCell_ok (e : ℚ) (T : ℚ) (h0 : T ≠ 0) (h : setEnergy (fun T => ∑ i, tcClip (mexFractions (mexSampleCell e)) i * tcSample.u T i)
      (fun T => ∑ i, tcClip (mexFractions (mexSampleCell e)) i * tcSample.cp T i - (∑ i, tcClip (mexFractions (mexSampleCell e)) i / tcSample.mass i) * tcSample.R)
      (((mexSampleCell e).energy - 1 / 2 * (mexSampleCell e).momentum * (mexSampleCell e).momentum / (mexSampleCell e).density) / (mexSampleCell e).density) (1 / 1000) 300 = some T) :
    MexCellOk tcSample (1 / 1000) (mexSampleCell e) := by
  refine ⟨one_ne_zero, fun T' h' => ?_⟩
  rw [h] at h'
  cases h'
  exact h0

example : ∃ rs, mexAdvance tcSample tcHeatSafe 1 (1 / 1000) (tcUpdateThermo tcSample (tcInit tcSample 7 1)) [mexSampleCell 350, mexSampleCell 360] = some rs ∧
    List.Forall₂ (MexReactedEnergy tcSample tcHeatSafe 1 (1 / 1000)) [mexSampleCell 350, mexSampleCell 360] rs.2 := by
  obtain ⟨⟨r', out⟩, e, h1, h2, h3, h4⟩ := mexSample_run
  refine ⟨_, e, mex_advance_energy_partial tcSample tcSample_ok tcHeatSafe tcHeatSafe_ok 1 (1 / 1000) _ _ r' out
    (tc_update_cache_of tcSample _ (by decide +kernel)) (by decide +kernel) ?_ h3 h4 e⟩
  intro c hc
  simp only [List.mem_cons, List.not_mem_nil, or_false] at hc
  rcases hc with rfl | rfl
  · exact mexSampleCell_ok 350 350 (by decide +kernel) (by decide +kernel)
  · exact mexSampleCell_ok 360 360 (by decide +kernel) (by decide +kernel)

/-- The hypotheses of `mex_set_tpx_partial` hold for a new reactor. -/
example : ∃ rc, mexSetTPX tcSample (tcUpdateThermo tcSample (tcInit tcSample 7 1)) 400 200 (fun _ => 3) = some rc ∧ rc.2.density = 1 / 2 ∧ rc.2.energy = 200 := by
  exact tc_opt_ex _ _ (by decide +kernel)

/-- **C199** (disagreement) The enthalpies at 400 K are reported as those at 300 K. -/
theorem mex_enthalpies_wrong : (mexEnthalpies tcSample (tcUpdateThermo tcSample (tcInit tcSample 7 1)) 400).2 0 = 600 ∧ tcSample.h 400 0 = 800 := by decide +kernel

end Fub
