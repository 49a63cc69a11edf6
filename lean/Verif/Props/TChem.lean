import Verif.Spec.TChem
import Verif.Props.Newton
import Mathlib.Algebra.Order.BigOperators.Ring.Finset
import Mathlib.Algebra.BigOperators.Field
import Mathlib.Data.List.Chain
import Mathlib.Tactic.FieldSimp
import Mathlib.Tactic.Ring
import Mathlib.Tactic.Positivity
import Mathlib.Data.Rat.Floor

/-!
C198 (the TChem reactor) and C199 (its Matlab interface).
-/

namespace Fub
open Finset

section
variable {n : ℕ} {K : Type} [Field K] [LinearOrder K] [IsStrictOrderedRing K]

/-! ## Fractions -/

theorem tc_clip_nonneg (X : Fin (n + 1) → K) (i) : 0 ≤ tcClip X i :=
  div_nonneg (le_max_left _ _) (sum_nonneg fun _ _ => le_max_left _ _)

theorem tc_clip_sum (X : Fin (n + 1) → K) (h : 0 < ∑ j, max 0 (X j)) : ∑ i, tcClip X i = 1 := by
  unfold tcClip
  rw [← Finset.sum_div]
  exact div_self h.ne'

theorem tc_mean_pos (L : TcLib n K) (hL : TcDataOk L) (X : Fin (n + 1) → K) (h0 : ∀ i, 0 ≤ X i) (h1 : ∑ i, X i = 1) :
    0 < ∑ j, X j * L.mass j := by
  obtain ⟨i, _, hi⟩ : ∃ i ∈ (Finset.univ : Finset (Fin (n + 1))), 0 < X i := by
    by_contra hne
    push Not at hne
    have : ∑ i, X i ≤ 0 := sum_nonpos fun i hi => hne i hi
    rw [h1] at this
    exact absurd this (not_le.2 zero_lt_one)
  exact sum_pos' (fun j _ => mul_nonneg (h0 j) (hL.2 j).le) ⟨i, mem_univ _, mul_pos hi (hL.2 i)⟩

theorem tc_molar_of_moles (L : TcLib n K) (hL : TcDataOk L) (X : Fin (n + 1) → K) :
    tcMolarSum L (tcMl2Ms L X) = (∑ i, X i) / ∑ j, X j * L.mass j := by
  unfold tcMolarSum tcMl2Ms
  rw [Finset.sum_div]
  refine sum_congr rfl fun i _ => ?_
  have := (hL.2 i).ne'
  generalize (∑ j, X j * L.mass j) = W
  rw [div_div, mul_comm W, mul_comm (X i), mul_div_mul_left _ _ this]

theorem tc_moles_back (L : TcLib n K) (hL : TcDataOk L) (X : Fin (n + 1) → K) (h0 : ∀ i, 0 ≤ X i) (h1 : ∑ i, X i = 1) (i) :
    X i = (tcMl2Ms L X i / L.mass i) / tcMolarSum L (tcMl2Ms L X) := by
  rw [tc_molar_of_moles L hL, h1]
  have hW := (tc_mean_pos L hL X h0 h1).ne'
  have := (hL.2 i).ne'
  unfold tcMl2Ms
  field_simp

theorem tc_rho_ml (L : TcLib n K) (hL : TcDataOk L) (X : Fin (n + 1) → K) (h1 : ∑ i, X i = 1) (p T : K) :
    tcRhoMl L p T X = tcRho L p T (tcMl2Ms L X) := by
  unfold tcRhoMl tcRho
  rw [tc_molar_of_moles L hL, h1]
  generalize (∑ j, X j * L.mass j) = W
  rw [mul_one_div, div_mul_eq_mul_div, div_div_eq_mul_div]

/-! ## Invariants of all histories -/

/-- What holds after every call. -/
structure TcInv (L : TcLib n K) (t0 : K) (b : Prop) (r : TcReactor n K) : Prop where
  slot : r.slot = r.temperature
  libP : r.libP = r.pressure
  moles : TcMolesBelong L r
  dens : b → r.density = tcRho L r.pressure r.temperature r.Y
  cache : r.thermoT = t0 ∨ TcCacheOk L r

theorem tc_ms2ml_belong (L : TcLib n K) (Y : Fin (n + 1) → K) (i) : tcMs2Ml L Y i = (Y i / L.mass i) / ∑ j, Y j / L.mass j := by
  unfold tcMs2Ml tcMolarSum
  ring

omit [IsStrictOrderedRing K] in
theorem tc_iso_fold (L : TcLib n K) (evals : List (K × K)) (r : TcReactor n K) :
    let s := evals.foldl (fun s e => (tcIsoRhs L s e.1 e.2).1) r
    s.Y = r.Y ∧ s.moles = r.moles ∧ s.thermoT = r.thermoT ∧ s.cps = r.cps ∧ s.cvs = r.cvs ∧ s.hs = r.hs ∧ s.us = r.us := by
  induction evals generalizing r with
  | nil => exact ⟨rfl, rfl, rfl, rfl, rfl, rfl, rfl⟩
  | cons e es ih => exact ih _

theorem tc_inv_call (L : TcLib n K) (hL : TcDataOk L) (ode : TcOde n K) (t0 : K) (b : Prop) (r r' : TcReactor n K) (c : TcCall n K)
    (hc : TcTextOk c) (h : TcInv L t0 b r) (e : tcCall L ode r c = some r') : ∃ b', TcInv L t0 b' r' ∧ ∀ cs, tcSettled b (c :: cs) = tcSettled b' cs := by
  obtain ⟨hs, hp, hm, hd, hk⟩ := h
  cases c with
  | pressure p =>
    cases e
    exact ⟨False, ⟨hs, rfl, hm, False.elim, hk⟩, fun _ => rfl⟩
  | density rho =>
    cases e
    refine ⟨True, ⟨rfl, hp, hm, fun _ => ?_, hk⟩, fun _ => rfl⟩
    simp only [tcSetDensity, tcSetTemperature, hp]
  | temperature T =>
    cases e
    refine ⟨True, ⟨rfl, hp, hm, fun _ => ?_, hk⟩, fun _ => rfl⟩
    simp only [tcSetTemperature, hp]
  | energy U tol =>
    simp only [tcCall, tcSetEnergy] at e
    split at e
    · cases e
    · cases e
      exact ⟨True, ⟨rfl, rfl, hm, fun _ => rfl, hk⟩, fun _ => rfl⟩
  | masses Y =>
    simp only [tcCall, tcSetMassFractions] at e
    split at e
    · cases e
      refine ⟨True, ⟨hs, hp, fun i => tc_ms2ml_belong L _ i, fun _ => ?_, hk⟩, fun _ => rfl⟩
      simp only [hs, hp]
    · cases e
  | moles X =>
    simp only [tcCall, tcSetMoleFractions] at e
    split at e
    · rename_i hX
      cases e
      refine ⟨True, ⟨hs, hp, fun i => tc_moles_back L hL _ (tc_clip_nonneg X) (tc_clip_sum X hX) i, fun _ => ?_, hk⟩, fun _ => rfl⟩
      simp only [hs, hp]
      exact tc_rho_ml L hL _ (tc_clip_sum X hX) _ _
    · cases e
  | text X =>
    cases e
    refine ⟨False, ⟨hs, hp, fun i => ?_, False.elim, hk⟩, fun _ => rfl⟩
    have hX : ∀ i, 0 ≤ X i := hc
    rcases (sum_nonneg fun i _ => hX i : 0 ≤ ∑ i, X i).eq_or_lt with h0 | h0
    · have hz : (fun i => X i / ∑ j, X j) = fun _ => (0 : K) := by
        funext i
        rw [← h0, div_zero]
      simp [tcSetMoleText, hz, tcMl2Ms]
    · exact tc_moles_back L hL (fun i => X i / ∑ j, X j) (fun i => div_nonneg (hX i) h0.le)
        (by rw [← Finset.sum_div]; exact div_self h0.ne') i
  | isentropic p evals T =>
    cases e
    refine ⟨False, ?_, fun _ => rfl⟩
    unfold tcIsentropic
    split
    · exact ⟨hs, hp, hm, False.elim, hk⟩
    · obtain ⟨e1, e2, e3, e4, e5, e6, e7⟩ := tc_iso_fold L evals r
      refine ⟨rfl, rfl, fun i => ?_, False.elim, ?_⟩
      · simp only [tcSetPressure, tcSetTemperature, e1, e2]
        exact hm i
      · simp only [TcCacheOk, tcSetPressure, tcSetTemperature, e3, e4, e5, e6]
        exact hk
  | advance dt =>
    simp only [tcCall, tcAdvance] at e
    split at e
    · rename_i hdt
      split at e
      · cases e
      · rename_i o _
        cases e
        refine ⟨b ∨ 0 < dt, ⟨rfl, rfl, fun i => tc_ms2ml_belong L o.Y i, fun _ => rfl, hk⟩, fun _ => rfl⟩
    · rename_i hdt
      cases e
      exact ⟨b ∨ 0 < dt, ⟨hs, hp, hm, fun h => hd (h.resolve_right hdt), hk⟩, fun _ => rfl⟩
  | update =>
    cases e
    refine ⟨b, ?_, fun _ => rfl⟩
    unfold tcUpdateThermo
    split
    · exact ⟨hs, rfl, hm, hd, Or.inr ⟨rfl, rfl, rfl⟩⟩
    · exact ⟨hs, hp, hm, hd, hk⟩

theorem tc_inv_init (L : TcLib n K) (t0 lp : K) : TcInv L t0 True (tcInit L t0 lp) :=
  ⟨rfl, rfl, fun i => tc_ms2ml_belong L _ i, fun _ => rfl, Or.inl rfl⟩

theorem tc_inv_calls (L : TcLib n K) (hL : TcDataOk L) (ode : TcOde n K) (t0 : K) (cs : List (TcCall n K)) :
    ∀ (b : Prop) (r r' : TcReactor n K), (∀ c ∈ cs, TcTextOk c) → TcInv L t0 b r → tcCalls L ode r cs = some r' → TcInv L t0 (tcSettled b cs) r' := by
  induction cs with
  | nil =>
    intro b r r' _ h e
    cases e
    exact h
  | cons c cs ih =>
    intro b r r' hc h e
    simp only [tcCalls, Option.bind_eq_some_iff] at e
    obtain ⟨r1, e1, e2⟩ := e
    obtain ⟨b', h', hb⟩ := tc_inv_call L hL ode t0 b r r1 c (hc c (by simp)) h e1
    rw [hb]
    exact ih b' r1 r' (fun c' h' => hc c' (by simp [h'])) h' e2

/-- **C198** After every history of calls the mole fractions are those of the mass fractions, and the library has the pressure of the reactor. -/
theorem tc_consistent (L : TcLib n K) (hL : TcDataOk L) (ode : TcOde n K) (t0 lp : K) (cs : List (TcCall n K)) (r : TcReactor n K)
    (hc : ∀ c ∈ cs, TcTextOk c) (e : tcCalls L ode (tcInit L t0 lp) cs = some r) :
    TcMolesBelong L r ∧ r.libP = r.pressure ∧ r.slot = r.temperature :=
  let h := tc_inv_calls L hL ode t0 cs True _ r hc (tc_inv_init L t0 lp) e
  ⟨h.moles, h.libP, h.slot⟩

/-- **C198** After every history of calls density, pressure, temperature and fractions satisfy the law of the ideal gas, if no `SetPressure`, no `SetMoleFractions` of a text and no `SetPressureIsentropic` came after the last call that computes the density. The missing part is wrong, see `tc_pressure_stale`. -/
theorem tc_gas_law_partial (L : TcLib n K) (hL : TcDataOk L) (ode : TcOde n K) (t0 lp : K) (cs : List (TcCall n K)) (r : TcReactor n K)
    (hc : ∀ c ∈ cs, TcTextOk c) (e : tcCalls L ode (tcInit L t0 lp) cs = some r) (hs : tcSettled True cs)
    (hT : r.temperature ≠ 0) (hY : (∑ i, r.Y i / L.mass i) ≠ 0) : TcGasLaw L r := by
  have h := (tc_inv_calls L hL ode t0 cs True _ r hc (tc_inv_init L t0 lp) e).dens hs
  unfold TcGasLaw
  rw [h]
  unfold tcRho tcMolarSum
  exact div_mul_cancel₀ _ (mul_ne_zero (mul_ne_zero hL.1 hY) hT)

/-- **C198** After every history of calls and `UpdateThermoState` the heat capacities and the enthalpies are those at the temperature of the reactor, unless this temperature is by chance the value that was in memory when the reactor was made. -/
theorem tc_thermo_partial (L : TcLib n K) (hL : TcDataOk L) (ode : TcOde n K) (t0 lp : K) (cs : List (TcCall n K)) (r : TcReactor n K)
    (hc : ∀ c ∈ cs, TcTextOk c) (e : tcCalls L ode (tcInit L t0 lp) cs = some r) (hT : r.temperature ≠ t0) :
    let r' := tcUpdateThermo L r
    r'.cps = L.cp r.temperature ∧ r'.cvs = L.cv r.temperature ∧ r'.hs = L.h r.temperature ∧
      r'.temperature = r.temperature ∧ r'.pressure = r.pressure ∧ r'.density = r.density ∧ r'.Y = r.Y := by
  have h := tc_inv_calls L hL ode t0 cs True _ r hc (tc_inv_init L t0 lp) e
  simp only
  unfold tcUpdateThermo
  split
  · exact ⟨rfl, rfl, rfl, rfl, rfl, rfl, rfl⟩
  · rename_i hne
    push Not at hne
    rcases h.cache with h1 | ⟨h1, h2, h3⟩
    · exact absurd (hne.symm.trans h1) hT
    · rw [hne] at h1 h2 h3
      exact ⟨h1, h2, h3, rfl, rfl, rfl, rfl⟩

omit [IsStrictOrderedRing K] in
theorem tc_us_call (L : TcLib n K) (ode : TcOde n K) (t0 : K) (r r' : TcReactor n K) (c : TcCall n K)
    (hc : TcNotEnergy c) (h : r.thermoT = t0 ∨ r.us = L.u r.thermoT) (e : tcCall L ode r c = some r') : r'.thermoT = t0 ∨ r'.us = L.u r'.thermoT := by
  cases c with
  | pressure p => cases e; exact h
  | density rho => cases e; exact h
  | temperature T => cases e; exact h
  | energy U tol => exact hc.elim
  | masses Y =>
    simp only [tcCall, tcSetMassFractions] at e
    split at e
    · cases e; exact h
    · cases e
  | moles X =>
    simp only [tcCall, tcSetMoleFractions] at e
    split at e
    · cases e; exact h
    · cases e
  | text X => cases e; exact h
  | isentropic p evals T =>
    cases e
    unfold tcIsentropic
    split
    · exact h
    · obtain ⟨e1, e2, e3, e4, e5, e6, e7⟩ := tc_iso_fold L evals r
      simp only [tcSetPressure, tcSetTemperature, e3, e7]
      exact h
  | advance dt =>
    simp only [tcCall, tcAdvance] at e
    split at e
    · split at e
      · cases e
      · cases e; exact h
    · cases e; exact h
  | update =>
    cases e
    unfold tcUpdateThermo
    split
    · exact Or.inr rfl
    · exact h

omit [IsStrictOrderedRing K] in
/-- **C198** After a history without `SetInternalEnergy` and `UpdateThermoState` the reported internal energy is the one at the temperature and the fractions of the reactor. With `SetInternalEnergy` this is wrong, see `tc_energy_stale`. -/
theorem tc_energy_partial (L : TcLib n K) (ode : TcOde n K) (t0 lp : K) (cs : List (TcCall n K)) (r : TcReactor n K)
    (hc : ∀ c ∈ cs, TcNotEnergy c) (e : tcCalls L ode (tcInit L t0 lp) cs = some r) (hT : r.temperature ≠ t0) :
    tcGetEnergy (tcUpdateThermo L r) = ∑ i, r.Y i * L.u r.temperature i := by
  have key : ∀ (cs : List (TcCall n K)) (s : TcReactor n K), (∀ c ∈ cs, TcNotEnergy c) → (s.thermoT = t0 ∨ s.us = L.u s.thermoT) →
      tcCalls L ode s cs = some r → (r.thermoT = t0 ∨ r.us = L.u r.thermoT) := by
    intro cs
    induction cs with
    | nil =>
      intro s _ h e
      cases e
      exact h
    | cons c cs ih =>
      intro s hc h e
      simp only [tcCalls, Option.bind_eq_some_iff] at e
      obtain ⟨r1, e1, e2⟩ := e
      exact ih r1 (fun c' h' => hc c' (by simp [h'])) (tc_us_call L ode t0 s r1 c (hc c (by simp)) h e1) e2
  have h := key cs _ hc (Or.inl rfl) e
  unfold tcUpdateThermo
  split
  · rfl
  · rename_i hne
    push Not at hne
    rcases h with h1 | h1
    · exact absurd (hne.symm.trans h1) hT
    · unfold tcGetEnergy
      rw [h1, hne]

omit [IsStrictOrderedRing K] in
theorem tc_set_energy_some (L : TcLib n K) (r r' : TcReactor n K) (U tol : K) (e : tcSetEnergy L r U tol = some r') :
    ∃ T, setEnergy (fun T => tcEnergy L T r.Y) (fun T => tcCvMix L T r.Y) U tol 300 = some T ∧
      r' = tcSetTemperature L (tcSetPressure { r with slot := T, us := L.u T } (r.density * L.R / tcMeanMolarMass L r * T)) T := by
  unfold tcSetEnergy at e
  split at e
  · cases e
  · rename_i T hT
    exact ⟨T, hT, (Option.some.inj e).symm⟩

omit [IsStrictOrderedRing K] in
/-- **C198** `SetInternalEnergy` keeps density and fractions, sets the pressure of the gas law, and `GetInternalEnergy` reports the energy at the new temperature. -/
theorem tc_set_energy_state (L : TcLib n K) (r r' : TcReactor n K) (U tol : K) (e : tcSetEnergy L r U tol = some r')
    (hR : L.R ≠ 0) (hT : r'.temperature ≠ 0) (hY : (∑ i, r.Y i / L.mass i) ≠ 0) :
    r'.density = r.density ∧ r'.Y = r.Y ∧ r'.moles = r.moles ∧ r'.pressure = r.density * L.R * (∑ i, r.Y i / L.mass i) * r'.temperature ∧
      tcGetEnergy r' = ∑ i, r.Y i * L.u r'.temperature i := by
  obtain ⟨T, _, rfl⟩ := tc_set_energy_some L r r' U tol e
  have hT' : T ≠ 0 := hT
  have ep : r.density * L.R / tcMeanMolarMass L r * T = r.density * L.R * (∑ i, r.Y i / L.mass i) * T := by
    unfold tcMeanMolarMass tcMolarSum
    rw [div_div_eq_mul_div, div_one]
  refine ⟨?_, rfl, rfl, ep, rfl⟩
  show tcRho L (r.density * L.R / tcMeanMolarMass L r * T) T r.Y = r.density
  rw [ep]
  unfold tcRho tcMolarSum
  generalize (∑ i, r.Y i / L.mass i) = s at *
  field_simp

/-- **C198** `SetInternalEnergy` succeeds and finds the temperature of the given energy, for species data with a regular energy (C126), whatever temperature the reactor had. -/
theorem tc_set_energy_converges (L : TcLib n K) (r : TcReactor n K) (U Ts m l q tol : K) (n1 n2 : ℕ)
    (hE : EnergyCurve (fun T => ∑ i, r.Y i * L.u T i) (fun T => ∑ i, r.Y i * L.cp T i - (∑ i, r.Y i / L.mass i) * L.R) U Ts m l q |300 - Ts|)
    (ht : tol ≤ 100) (htol : 0 < tol) (hn1 : |300 - Ts| ≤ 100 / (1 - q) + 100 * n1)
    (hn2 : 2 * (q ^ n2 * (100 / (1 - q))) < tol) (hn : n1 + n2 + 1 ≤ 1000) :
    ∃ r', tcSetEnergy L r U tol = some r' ∧ NewtonAccuracy U Ts |300 - Ts| m l q tol r'.temperature := by
  obtain ⟨T, e, h⟩ := set_energy_converges _ _ U Ts m l q tol 300 n1 n2 hE ht htol hn1 hn2 hn
  refine ⟨tcSetTemperature L (tcSetPressure { r with slot := T, us := L.u T } (r.density * L.R / tcMeanMolarMass L r * T)) T, ?_, h⟩
  unfold tcSetEnergy
  have e' : setEnergy (fun T => tcEnergy L T r.Y) (fun T => tcCvMix L T r.Y) U tol 300 = some T := e
  rw [e']

omit [IsStrictOrderedRing K] in
/-- **C198** `SetInternalEnergy` has no memory: reactors with the same density and fractions get the same temperature and pressure. -/
theorem tc_set_energy_memoryless (L : TcLib n K) (r s : TcReactor n K) (U tol : K) (hd : r.density = s.density) (hY : r.Y = s.Y) :
    (tcSetEnergy L r U tol).map (fun r => (r.temperature, r.pressure, r.density, r.Y)) =
      (tcSetEnergy L s U tol).map (fun r => (r.temperature, r.pressure, r.density, r.Y)) := by
  unfold tcSetEnergy tcMeanMolarMass
  rw [hY, hd]
  split
  · rfl
  · simp only [Option.map_some, tcSetTemperature, tcSetPressure, hY]

omit [LinearOrder K] [IsStrictOrderedRing K] in
theorem tc_src_fold (L : TcLib n K) (hR : L.R ≠ 0) (rho : K) (es : List (K × (Fin (n + 1) → K))) (p0 : K) (e : K × (Fin (n + 1) → K))
    (hp : p0 ≠ 0) (hrho : rho ≠ 0) (h : ∀ e' ∈ es ++ [e], e'.1 ≠ 0 ∧ (∑ i, e'.2 i / L.mass i) ≠ 0) :
    (es ++ [e]).foldl (tcSrcPressure L rho) p0 = rho * L.R * (∑ i, e.2 i / L.mass i) * e.1 := by
  have one : ∀ (p : K) (e' : K × (Fin (n + 1) → K)), p ≠ 0 → e'.1 ≠ 0 → (∑ i, e'.2 i / L.mass i) ≠ 0 →
      tcSrcPressure L rho p e' = rho * L.R * (∑ i, e'.2 i / L.mass i) * e'.1 := by
    intro p e' h1 h2 h3
    unfold tcSrcPressure tcRho tcMolarSum
    generalize (∑ i, e'.2 i / L.mass i) = s at *
    field_simp
  induction es generalizing p0 with
  | nil =>
    obtain ⟨h1, h2⟩ := h e (by simp)
    exact one p0 e hp h1 h2
  | cons a es ih =>
    obtain ⟨h1, h2⟩ := h a (by simp)
    refine ih _ ?_ fun e' he => h e' (by simp at he ⊢; tauto)
    rw [one p0 a hp h1 h2]
    exact mul_ne_zero (mul_ne_zero (mul_ne_zero hrho hR) h2) h1

omit [IsStrictOrderedRing K] in
/-- **C198** `Advance` keeps the density and leaves temperature and fractions of the integrator and the pressure of the gas law, if the integrator evaluates the equations at the final state last. -/
theorem tc_advance_state (L : TcLib n K) (hR : L.R ≠ 0) (ode : TcOde n K) (ho : TcOdeOk L ode) (r r' : TcReactor n K) (dt : K) (hdt : 0 < dt)
    (hp : r.libP ≠ 0) (hrho : r.density ≠ 0) (e : tcAdvance L ode r dt = some r') :
    ∃ o, ode r.density r.slot r.Y dt = some o ∧ r'.density = r.density ∧ r'.temperature = o.T ∧ r'.Y = o.Y ∧
      r'.pressure = r.density * L.R * (∑ i, o.Y i / L.mass i) * o.T := by
  unfold tcAdvance at e
  rw [if_pos hdt] at e
  split at e
  · cases e
  · rename_i o h
    cases e
    obtain ⟨⟨es, h1⟩, h2⟩ := ho _ _ _ _ _ h
    have hf := tc_src_fold L hR r.density es r.libP (o.T, o.Y) hp hrho (h1 ▸ h2)
    have hl := h2 (o.T, o.Y) (by rw [h1]; simp)
    refine ⟨o, h, ?_, rfl, rfl, ?_⟩
    · show tcRho L (o.evals.foldl (tcSrcPressure L r.density) r.libP) o.T o.Y = r.density
      rw [h1, hf]
      unfold tcRho tcMolarSum
      obtain ⟨h3, h4⟩ := hl
      simp only at h3 h4 ⊢
      generalize (∑ i, o.Y i / L.mass i) = s at *
      field_simp
    · show o.evals.foldl (tcSrcPressure L r.density) r.libP = _
      rw [h1, hf]

omit [IsStrictOrderedRing K] in
/-- **C198** Otherwise the density changes: the pressure is the one of the last evaluated state, the temperature and the fractions are those of the final state. -/
theorem tc_advance_drift (L : TcLib n K) (hR : L.R ≠ 0) (r : TcReactor n K) (o : TcOdeResult n K) (es : List (K × (Fin (n + 1) → K))) (l : K × (Fin (n + 1) → K))
    (he : o.evals = es ++ [l]) (h2 : ∀ e ∈ o.evals, e.1 ≠ 0 ∧ (∑ i, e.2 i / L.mass i) ≠ 0) (hp : r.libP ≠ 0) (hrho : r.density ≠ 0) :
    (tcAfterOde L r o).density = r.density * ((∑ i, l.2 i / L.mass i) * l.1) / ((∑ i, o.Y i / L.mass i) * o.T) := by
  show tcRho L (o.evals.foldl (tcSrcPressure L r.density) r.libP) o.T o.Y = _
  rw [he, tc_src_fold L hR r.density es r.libP l hp hrho (he ▸ h2)]
  unfold tcRho tcMolarSum
  generalize (∑ i, o.Y i / L.mass i) = s
  generalize (∑ i, l.2 i / L.mass i) = s'
  rw [show r.density * L.R * s' * l.1 = L.R * (r.density * (s' * l.1)) by ring, show L.R * s * o.T = L.R * (s * o.T) by ring,
    mul_div_mul_left _ _ hR]

omit [IsStrictOrderedRing K] in
/-- **C198** (disagreement) The slope that `SetPressureIsentropic` integrates over the pressure does not depend on the pressure at which it is evaluated. -/
theorem tc_isentropic_slope (L : TcLib n K) (r : TcReactor n K) (T p p' : K) : (tcIsoRhs L r T p).2 = (tcIsoRhs L r T p').2 := rfl

end

/-! ## Witnesses -/

theorem tc_opt_ex {α : Type} (o : Option α) (P : α → Prop) [DecidablePred P] (h : o.elim false (fun r => decide (P r)) = true) : ∃ r, o = some r ∧ P r := by
  cases o with
  | none => cases h
  | some r => exact ⟨r, rfl, of_decide_eq_true h⟩

instance tcGasLawDec (n : ℕ) (L : TcLib n ℚ) (r : TcReactor n ℚ) : Decidable (TcGasLaw L r) := by
  unfold TcGasLaw
  infer_instance


/-- One species of molar mass one, with constant heat capacities and `u = T`. -/
def tcSample : TcLib 0 ℚ := { mass := fun _ => 1, R := 1, cp := fun _ _ => 2, cv := fun _ _ => 1, u := fun T _ => T, h := fun T _ => 2 * T }

/-- A reaction that heats by 1000 K. -/
def tcHeat : TcOde 0 ℚ := fun _ T Y _ => some { evals := [(T, Y), (T + 1000, Y)], T := T + 1000, Y := Y }

theorem tcSample_ok : TcDataOk tcSample := ⟨by decide +kernel, fun _ => (by decide +kernel : (0 : ℚ) < 1)⟩

theorem tcHeat_calls : ∃ r, tcCalls tcSample tcHeat (tcInit tcSample 7 1)
    [.pressure 200000, .text (fun _ => 3), .masses (fun _ => 2), .density 2, .update, .energy 350 (1 / 1000), .advance 1, .update] = some r ∧
    r.temperature = 1350 ∧ r.density = 2 ∧ r.pressure = 2700 ∧ (∑ i, r.Y i / tcSample.mass i) ≠ 0 := by
  exact tc_opt_ex _ _ (by decide +kernel)

/-- The hypotheses of `tc_gas_law_partial` hold for a history with calls of many kinds. -/
example : ∃ r, tcCalls tcSample tcHeat (tcInit tcSample 7 1)
    [.pressure 200000, .text (fun _ => 3), .masses (fun _ => 2), .density 2, .update, .energy 350 (1 / 1000), .advance 1, .update] = some r ∧ TcGasLaw tcSample r ∧
    TcMolesBelong tcSample r := by
  obtain ⟨r, e, h1, h2, h3, h4⟩ := tcHeat_calls
  have hc : ∀ c ∈ ([.pressure 200000, .text (fun _ => 3), .masses (fun _ => 2), .density 2, .update, .energy 350 (1 / 1000), .advance 1, .update] : List (TcCall 0 ℚ)), TcTextOk c := by
    intro c hc
    simp only [List.mem_cons, List.not_mem_nil, or_false] at hc
    rcases hc with rfl | rfl | rfl | rfl | rfl | rfl | rfl | rfl <;> simp [TcTextOk]
  refine ⟨r, e, ?_, (tc_consistent tcSample tcSample_ok tcHeat 7 1 _ r hc e).1⟩
  refine tc_gas_law_partial tcSample tcSample_ok tcHeat 7 1 _ r hc e (by simp [tcSettled]) (by rw [h1]; norm_num) ?_
  exact h4

/-- **C198** (disagreement) After `SetPressure` the reported density is not the one of the gas law: a reactor at 300 K whose pressure is doubled keeps its density. -/
theorem tc_pressure_stale : ∃ r : TcReactor 0 ℚ, tcCalls tcSample tcHeat (tcInit tcSample 7 1) [.pressure 202650] = some r ∧
    r.temperature = 300 ∧ r.pressure = 202650 ∧ ¬ TcGasLaw tcSample r := by
  exact tc_opt_ex _ _ (by decide +kernel)

/-- Two species of molar masses one and two. -/
def tcSample2 : TcLib 1 ℚ := { mass := fun i => if i = 0 then 1 else 2, R := 1, cp := fun _ _ => 2, cv := fun _ _ => 1, u := fun T _ => T, h := fun T _ => 2 * T }

/-- **C198** (disagreement) After `SetMoleFractions` of a text the density is the one of the fractions before; with numbers it is the right one. -/
theorem tc_text_stale : (∃ r : TcReactor 1 ℚ, tcCalls tcSample2 (fun _ _ _ _ => none) (tcInit tcSample2 7 1) [.text (fun i => if i = 0 then 0 else 1)] = some r ∧
    ¬ TcGasLaw tcSample2 r) ∧
    ∃ r : TcReactor 1 ℚ, tcCalls tcSample2 (fun _ _ _ _ => none) (tcInit tcSample2 7 1) [.moles (fun i => if i = 0 then 0 else 1)] = some r ∧
    TcGasLaw tcSample2 r := by
  exact ⟨tc_opt_ex _ _ (by decide +kernel), tc_opt_ex _ _ (by decide +kernel)⟩

/-- **C198** (disagreement) `UpdateThermoState` at 300 K, `SetInternalEnergy` to the energy at 350 K, `SetTemperature` back to 300 K and `UpdateThermoState`: the reported internal energy is the one at 350 K. -/
theorem tc_energy_stale : ∃ r : TcReactor 0 ℚ, tcCalls tcSample tcHeat (tcInit tcSample 7 1) [.update, .energy 350 (1 / 1000), .temperature 300, .update] = some r ∧
    r.temperature = 300 ∧ tcGetEnergy r = 350 ∧ (∑ i, r.Y i * tcSample.u r.temperature i) = 300 := by
  exact tc_opt_ex _ _ (by decide +kernel)

/-- The hypotheses of `tc_energy_partial` hold for the same history without `SetInternalEnergy`. -/
example : ∃ r : TcReactor 0 ℚ, tcCalls tcSample tcHeat (tcInit tcSample 7 1) [.update, .temperature 350, .update, .temperature 300] = some r ∧
    r.temperature ≠ 7 ∧ tcGetEnergy (tcUpdateThermo tcSample r) = 300 := by
  exact tc_opt_ex _ _ (by decide +kernel)

/-- **C198** (disagreement) If the memory of a new reactor happens to contain the temperature 300, `UpdateThermoState` does nothing and the heat capacity is reported as zero. -/
theorem tc_thermo_uninitialised : ∃ r : TcReactor 0 ℚ, tcCalls tcSample tcHeat (tcInit tcSample 300 1) [.update] = some r ∧ r.temperature = 300 ∧ tcGetCp r = 0 := by
  exact tc_opt_ex _ _ (by decide +kernel)

/-- **C198** (disagreement) `SetPressureIsentropic` of a reactor at 300 K that was never asked to update its heat capacities: with the exact final temperature the density is the one of the old pressure. -/
theorem tc_isentropic_stale : ∃ r : TcReactor 0 ℚ, tcCalls tcSample tcHeat (tcInit tcSample 7 1) [.isentropic 202650 [] 424] = some r ∧
    r.pressure = 202650 ∧ r.temperature = 424 ∧ r.density = 101325 / 424 ∧ ¬ TcGasLaw tcSample r := by
  exact tc_opt_ex _ _ (by decide +kernel)

theorem tcHeat_ok_example : ∀ rho T dt, (T : ℚ) > 0 → ∀ Y : Fin 1 → ℚ, Y 0 > 0 → ∃ o, tcHeat rho T Y dt = some o ∧ (∃ es, o.evals = es ++ [(o.T, o.Y)]) ∧
    ∀ e ∈ o.evals, e.1 ≠ 0 ∧ (∑ i, e.2 i / tcSample.mass i) ≠ 0 := by
  intro rho T dt hT Y hY
  refine ⟨_, rfl, ⟨[(T, Y)], rfl⟩, ?_⟩
  intro e he
  simp only [List.mem_cons, List.not_mem_nil, or_false] at he
  rcases he with rfl | rfl
  · exact ⟨hT.ne', by simp [tcSample]; exact hY.ne'⟩
  · exact ⟨by simp only; positivity, by simp [tcSample]; exact hY.ne'⟩

/-- A reaction that heats by 1000 K at possible states and gives up otherwise. -/
def tcHeatSafe : TcOde 0 ℚ := fun rho T Y dt => if 0 < T ∧ 0 < Y 0 then tcHeat rho T Y dt else none

theorem tcHeatSafe_ok : TcOdeOk tcSample tcHeatSafe := by
  intro rho T Y dt o h
  unfold tcHeatSafe at h
  split at h
  · rename_i hc
    obtain ⟨o', e, h'⟩ := tcHeat_ok_example rho T dt hc.1 Y hc.2
    rw [h] at e
    cases e
    exact h'
  · cases h

/-- The hypotheses of `tc_advance_state` hold for a reactor at 300 K. -/
example : ∃ r', tcAdvance tcSample tcHeatSafe (tcInit tcSample 7 1) 1 = some r' ∧ r'.temperature = 1300 ∧ r'.density = (tcInit tcSample 7 1).density := by
  exact tc_opt_ex _ _ (by decide +kernel)

end Fub
