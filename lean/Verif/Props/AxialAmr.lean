import Verif.Spec.AxialAmr
import Verif.Props.Amr
import Mathlib.Tactic.FieldSimp
import Mathlib.Tactic.Ring
import Mathlib.Tactic.LinearCombination

/-!
C166: refined grids in a tube with a varying cross section.
-/

namespace Fub
open Finset
variable {K X : Type} [Field K]

/-! ### From the tube to plane grids

If the variable is multiplied with the mean area of its cell and the flux with the area of its face, the update of the tube is the plane one. -/

/-- The state in variables per length. -/
def perLength (area : Nat → Int → K) (s : AmrState 1 K X) : AmrState 1 K X where
  u := fun k i => (area k (i 0) + area k (i 0 + 1)) / 2 * s.u k i
  flux := fun k d i => area k (i 0) * s.flux k d i
  reg := fun k e j => match k with
    | 0 => s.reg 0 e j
    | k + 1 => area k (j 0) * s.reg (k + 1) e j
  log := s.log.map fun e => ⟨e.level, e.dt, e.dir, fun i => area e.level (i 0) * e.flux i⟩
  rest := s.rest

theorem shift_zero_one (i : Index 1) (a : Int) : shift i 0 a = fun _ => i 0 + a := by
  funext d
  have : d = 0 := Subsingleton.elim _ _
  subst this
  simp [shift]

theorem index_one (i : Index 1) : (fun _ => i 0) = i := by
  funext d
  have : d = 0 := Subsingleton.elim _ _
  subst this; rfl

theorem perLength_update (g : Grids 1) (dx : Nat → Fin 1 → K) (area : Nat → Int → K) (hA : ∀ l f, area l f + area l (f + 1) ≠ 0) (h2 : (2 : K) ≠ 0) (l : Nat)
    (dt : K) (d : Fin 1) (s : AmrState 1 K X) : perLength area (axialAmrUpdate g dx area l dt d s) = amrUpdate g dx l dt d (perLength area s) := by
  have hd : d = 0 := Subsingleton.elim _ _
  subst hd
  unfold perLength axialAmrUpdate amrUpdate
  congr 1
  · funext k i
    by_cases hk : k = l ∧ i ∈ g.cells l
    · obtain ⟨rfl, hi⟩ := hk
      simp only [hi, and_self, if_true, axialCell, shift_zero_one, index_one]
      rw [Function.update_of_ne (by decide)]
      have := hA k (i 0)
      generalize area k (i 0) = a at this ⊢
      generalize area k (i 0 + 1) = b at this ⊢
      field_simp
    · simp only [hk, if_false]
  · simp

theorem fineFaces_one (r : Nat) (j : Index 1) : fineFaces r (0 : Fin 1) j = {fun _ => (r : Int) * j 0} := by
  ext i
  simp only [fineFaces, Fintype.mem_piFinset, Finset.mem_singleton]
  constructor
  · intro h
    funext d
    have hd : d = 0 := Subsingleton.elim _ _
    subst hd
    have := h 0
    simpa using this
  · rintro rfl d
    have hd : d = 0 := Subsingleton.elim _ _
    subst hd
    simp

/-- The areas of a finer level are those of the coarser level at the common faces. -/
def AreasAgree (g : Grids 1) (area : Nat → Int → K) : Prop := ∀ l f, area (l + 1) ((g.ratio (l + 1) : Int) * f) = area l f

theorem perLength_accumulate (g : Grids 1) (dx : Nat → Fin 1 → K) (area : Nat → Int → K) (hag : AreasAgree g area) (l : Nat) (scale : K) (d : Fin 1)
    (s : AmrState 1 K X) : perLength area (amrAccumulate g dx l scale d s) = amrAccumulate g dx l scale d (perLength area s) := by
  have hd : d = 0 := Subsingleton.elim _ _
  subst hd
  unfold amrAccumulate
  simp only [perLength]
  congr 1
  funext k e j
  have he : e = 0 := Subsingleton.elim _ _
  subst he
  cases k with
  | zero =>
    by_cases h1 : 0 < l <;> by_cases h2 : l + 1 < g.levels <;> simp only [h1, h2, if_true, if_false, crseAdd, fineAdd]
    all_goals
      have e1 : ¬ (0 = l + 1 ∧ (0 : Fin 1) = 0) := by omega
      have e2 : ¬ (0 = l) ∨ l = 0 := by omega
      rcases e2 with e2 | e2
      · simp [e2]
      · first | (exact absurd h1 (by omega)) | simp [e2]
  | succ k =>
    by_cases h1 : 0 < l <;> by_cases h2 : l + 1 < g.levels <;> simp only [h1, h2, if_true, if_false, crseAdd, fineAdd, fineFaces_one, sum_singleton]
    all_goals
      by_cases e1 : k = l
      · subst e1
        have e3 : ¬ k + 1 = k := by omega
        simp [e3]
        try ring
      · by_cases e2 : k + 1 = l
        · subst e2
          have hk := hag k (j 0)
          simp [e1]
          try (rw [hk]; ring)
        · have e4 : ¬ k + 1 = l + 1 := by omega
          simp [e1, e2]

/-- A function with the same effect on the state in variables per length. -/
noncomputable def lifted (area : Nat → Int → K) (f : AmrState 1 K X → AmrState 1 K X) (s : AmrState 1 K X) (x : AmrState 1 K X) : AmrState 1 K X :=
  open Classical in if x = perLength area s then perLength area (f s) else x

theorem lifted_keeps {g : Grids 1} (area : Nat → Int → K) {f : AmrState 1 K X → AmrState 1 K X} (hf : Keeps g f) (s : AmrState 1 K X) :
    Keeps g (lifted area f s) := by
  intro x
  unfold lifted
  split
  · rename_i h
    subst h
    obtain ⟨h1, h2, h3⟩ := hf s
    refine ⟨by simp only [perLength, h1], by simp only [perLength, h2], fun l i hi => ?_⟩
    simp only [perLength, h3 l i hi]
  · exact ⟨rfl, rfl, fun _ _ _ => rfl⟩

theorem lifted_self (area : Nat → Int → K) (f : AmrState 1 K X → AmrState 1 K X) (s : AmrState 1 K X) :
    lifted area f s (perLength area s) = perLength area (f s) := by simp [lifted]

theorem perLength_keeps_inv {g : Grids 1} (area : Nat → Int → K) {f : AmrState 1 K X → AmrState 1 K X} (hf : Keeps g f) (dx : Nat → Fin 1 → K) (l : Nat)
    (s : AmrState 1 K X) : LevelInv g dx l (perLength area s) (perLength area (f s)) := by
  have := keeps_inv (lifted_keeps area hf s) dx l (perLength area s)
  rwa [lifted_self] at this

theorem perLength_keeps_tree {g : Grids 1} (area : Nat → Int → K) {f : AmrState 1 K X → AmrState 1 K X} (hf : Keeps g f) (dx : Nat → Fin 1 → K) (l : Nat)
    (s : AmrState 1 K X) : TreeInv g dx l (perLength area s) (perLength area (f s)) := by
  have := keeps_tree (lifted_keeps area hf s) dx l (perLength area s)
  rwa [lifted_self] at this

theorem axial_step_inv (g : Grids 1) (hg : g.Nested) (dx : Nat → Fin 1 → K) (hdx : ∀ l d, dx l d ≠ 0) (area : Nat → Int → K)
    (hA : ∀ l f, area l f + area l (f + 1) ≠ 0) (h2 : (2 : K) ≠ 0) (hag : AreasAgree g area) (l : Nat) (hl : l < g.levels)
    (dt : K) (d : Fin 1) (f : AmrState 1 K X → AmrState 1 K X) (hf : Keeps g f) (hflux : ∀ s, (f s).flux = s.flux) (s : AmrState 1 K X) :
    LevelInv g dx l (perLength area s) (perLength area (amrAccumulate g dx l dt d (f (axialAmrUpdate g dx area l dt d s)))) := by
  have hfl : ∀ x, (lifted area f (axialAmrUpdate g dx area l dt d s) x).flux = x.flux := by
    intro x
    unfold lifted
    split
    · rename_i h
      subst h
      simp only [perLength, hflux]
    · rfl
  have := step_inv g hg dx hdx l hl dt d (lifted area f (axialAmrUpdate g dx area l dt d s)) (lifted_keeps area hf _) hfl (perLength area s)
  rwa [← perLength_update g dx area hA h2, lifted_self, ← perLength_accumulate g dx area hag] at this

theorem axial_adv_inv [LinearOrder K] (g : Grids 1) (hg : g.Nested) (dx : Nat → Fin 1 → K) (hdx : ∀ l d, dx l d ≠ 0) (area : Nat → Int → K)
    (hA : ∀ l f, area l f + area l (f + 1) ≠ 0) (h2 : (2 : K) ≠ 0) (hag : AreasAgree g area)
    (h : AmrHooks 1 K X) (hh : h.Ok g) (M : Split2 K (SplitState (AmrState 1 K X)) (StepErr K)) (hM : IsSplitting M) (l : Nat) (hl : l < g.levels)
    (cycle sub : Int) (hc : 0 ≤ cycle) (hs : 0 ≤ sub) (dt : K) (s : AmrState 1 K X) :
    LevelInv g dx l (perLength area s) (perLength area (advanceNonRecursively (axialDirOps g dx area h l) M 1 l cycle sub dt s).1) := by
  obtain ⟨sched, -, -, h3⟩ := hM 1 dt
  have hlen : (makeSplitDirections 1 cycle sub).length = 1 := by
    have := (splitDirections_perm 1 cycle sub hc hs).length_eq; simpa using this
  rw [advanceNonRecursively, h3 _ (by simp [hlen])]
  refine schedule_inv (fun a b : SplitState (AmrState 1 K X) => LevelInv g dx l (perLength area a.ctx) (perLength area b.ctx)) (fun _ => LevelInv.refl _ _ _ _)
    (fun _ _ _ h1 h2 => h1.trans h2) _ ?_ sched ⟨s, fun _ => 0, 0⟩
  intro op hop dt st
  obtain ⟨dir, -, rfl⟩ := List.mem_map.1 hop
  have h1 : LevelInv g dx l (perLength area st.ctx) (perLength area (if st.count dir > 0 then h.applyBc l dir st.ctx else st.ctx)) := by
    split
    · exact perLength_keeps_inv area (hh.applyBc l dir) dx l _
    · exact LevelInv.refl _ _ _ _
  have h4 := perLength_keeps_inv area (hh.preSplit l dt dir st.shared) dx l (if st.count dir > 0 then h.applyBc l dir st.ctx else st.ctx)
  simp only [splitOp, axialDirOps, amrDirOps]
  exact ite_ctx (fun x => LevelInv g dx l (perLength area st.ctx) (perLength area x)) _ _ (fun _ => h1.trans h4) (fun _ => (h1.trans h4).trans
    ((perLength_keeps_inv area (hh.fluxes l dt dir) dx l _).trans
      (axial_step_inv g hg dx hdx area hA h2 hag l hl dt _ (h.complete l dt) (hh.complete l dt) (hh.completeFlux l dt) _)))

theorem TreeInv.congr_right {n : Nat} {g : Grids n} {dx : Nat → Fin n → K} {l : Nat} {s a b : AmrState n K X} (h : TreeInv g dx l s a)
    (hu : ∀ k, ∀ i ∈ g.valid k, b.u k i = a.u k i) (hr : b.reg = a.reg) (hlog : b.log = a.log) : TreeInv g dx l s b := by
  have h1 : ∀ k, levelMass g dx k b = levelMass g dx k a := fun k => by
    rw [levelMass, levelMass]; exact congrArg _ (sum_congr rfl fun i hi => hu k i hi)
  have h2 : ∀ k, regSum g k b = regSum g k a := fun k => by
    cases k with
    | zero => rfl
    | succ k => rw [regSum, regSum, hr]
  have h3 : inflow g dx b = inflow g dx a := by rw [inflow, inflow, hlog]
  exact ⟨by simp only [massFrom, h1, h2, h3]; exact h.total, fun k hk => by rw [h1]; exact h.lower k hk, fun k hk => by rw [h2]; exact h.regs k hk⟩

theorem axial_level_tree (g : Grids 1) (dx : Nat → Fin 1 → K) (hdx : ∀ l d, dx l d ≠ 0) (area : Nat → Int → K) (h2 : (2 : K) ≠ 0)
    (hst : StraightAtInterfaces g area) (l : Nat) (hl : l + 1 < g.levels) (s a b : AmrState 1 K X)
    (h1 : TreeInv g dx (l + 1) (perLength area (amrReset (l + 1) s)) (perLength area a)) (hab : LevelInv g dx l (perLength area a) (perLength area b)) :
    TreeInv g dx l (perLength area s) (perLength area (amrCoarsen g (l + 1) l (amrCorrect g dx (l + 1) l b))) := by
  have hres : perLength area (amrReset (l + 1) s) = amrReset (l + 1) (perLength area s) := by
    unfold perLength amrReset
    congr 1
    funext k e j
    cases k with
    | zero => simp
    | succ k => by_cases hk : k = l <;> simp [hk]
  rw [hres] at h1
  refine (level_tree g dx hdx l hl (perLength area s) (perLength area a) (perLength area b) _ h1 hab rfl).congr_right ?_ ?_ ?_
  · intro k i hi
    have hv := hi
    rw [valid_mem] at hi
    have hfr : (List.finRange 1) = [0] := rfl
    by_cases hk : k = l
    · subst hk
      simp only [perLength, amrCoarsen, amrCorrect, hfr, List.foldl_cons, List.foldl_nil, amrRefluxDir, hi.1, hi.2, not_false_eq_true, and_self, if_true,
        and_false, if_false]
      by_cases hL : shift i 0 (-1) ∈ g.covered k <;> by_cases hR : shift i 0 1 ∈ g.covered k
      all_goals
        first
        | (have he := hst k i hv (Or.inl hL)
           simp only [hL, hR, if_true, if_false]
           have e1 : shift i 0 1 0 = i 0 + 1 := by simp [shift]
           try rw [e1]
           rw [← he]
           field_simp
           try ring)
        | (have he := hst k i hv (Or.inr hR)
           simp only [hL, hR, if_true, if_false]
           have e1 : shift i 0 1 0 = i 0 + 1 := by simp [shift]
           try rw [e1]
           rw [← he]
           field_simp
           try ring)
        | (simp only [hL, hR, if_false, add_zero, sub_zero]; done)
    · simp [perLength, amrCoarsen, amrCorrect, hfr, amrRefluxDir, hk]
  · rfl
  · rfl

theorem axial_forSub {E : Type} (R : AmrState 1 K X → AmrState 1 K X → Prop) (hrefl : ∀ s, R s s) (htrans : ∀ a b c, R a b → R b c → R a c)
    (f : Nat → AmrState 1 K X → AmrState 1 K X × Option E) (hf : ∀ r s, (f r s).2 = none → R s (f r s).1) (m : Nat) :
    ∀ (r : Nat) (s : AmrState 1 K X), (forSub f m r s).2 = none → R s (forSub f m r s).1 := by
  induction m with
  | zero => intro r s _; exact hrefl _
  | succ m ih =>
    intro r s h
    rw [forSub] at h ⊢
    obtain ⟨h1, h2, h3⟩ := andThen_ok h
    rw [h2]
    exact htrans _ _ _ (hf r s h1) (ih (r + 1) _ h3)

theorem axial_advanceLevel_tree [LinearOrder K] (g : Grids 1) (hg : g.Nested) (dx : Nat → Fin 1 → K) (hdx : ∀ l d, dx l d ≠ 0) (area : Nat → Int → K)
    (hA : ∀ l f, area l f + area l (f + 1) ≠ 0) (h2 : (2 : K) ≠ 0) (hag : AreasAgree g area) (hst : StraightAtInterfaces g area)
    (h : AmrHooks 1 K X) (hh : h.Ok g) (hcyc : ∀ s, 0 ≤ h.cycles s) (M : Split2 K (SplitState (AmrState 1 K X)) (StepErr K)) (hM : IsSplitting M) (fuel : Nat) :
    ∀ (l : Nat) (dt : K) (sub : Nat × Nat) (s : AmrState 1 K X), l < g.levels →
      (advanceLevel (axialSys g dx area h M) fuel l dt sub s).2 = none →
      TreeInv g dx l (perLength area s) (perLength area (advanceLevel (axialSys g dx area h M) fuel l dt sub s).1) := by
  induction fuel with
  | zero => intro l dt sub s _ _; exact TreeInv.refl _ _ _ _
  | succ fuel ih =>
    intro l dt sub s hl hr
    have hpre := perLength_keeps_tree area (hh.pre l dt sub) dx l s
    rw [advanceLevel] at hr ⊢
    by_cases hx : l + 1 < g.levels
    · have hlev : ∀ s, (axialSys g dx area h M).levelExists s (l + 1) = true := fun s => by simp [axialSys, amrSys, hx]
      simp only [hlev, if_true] at hr ⊢
      obtain ⟨r1, r2, r3⟩ := andThen_ok hr
      rw [r2]
      obtain ⟨r4, r5, r6⟩ := andThen_ok r3
      rw [r5]
      have f1 := axial_forSub (fun a b => TreeInv g dx (l + 1) (perLength area a) (perLength area b)) (fun _ => TreeInv.refl _ _ _ _)
        (fun _ _ _ p q => p.trans q) _ (fun r s hs => ih (l + 1) (dt / (g.ratio (l + 1) : K)) (r, g.ratio (l + 1)) s hx hs)
        (g.ratio (l + 1)) 0 _ (scaleRes_none r1)
      have f2 : ∀ s, LevelInv g dx l (perLength area s) (perLength area ((axialSys g dx area h M).adv l dt sub s).1) := fun s =>
        axial_adv_inv g hg dx hdx area hA h2 hag h hh M hM l hl (h.cycles s) sub.1 (hcyc _) (by positivity) dt s
      have f3 := axial_level_tree g dx hdx area h2 hst l hx _ _ _ f1 (f2 _)
      exact (((hpre.trans f3).trans (perLength_keeps_tree area (hh.complete l dt) dx l _)).trans (perLength_keeps_tree area (hh.copyBack l) dx l _)).trans
        (perLength_keeps_tree area (hh.post l dt sub) dx l _)
    · have hlev : ∀ s, (axialSys g dx area h M).levelExists s (l + 1) = false := fun s => by simp [axialSys, amrSys, hx]
      simp only [hlev, Bool.false_eq_true, if_false] at hr ⊢
      obtain ⟨r1, r2, r3⟩ := andThen_ok hr
      rw [r2]
      obtain ⟨r4, r5, r6⟩ := andThen_ok r3
      rw [r5]
      have f2 := axial_adv_inv g hg dx hdx area hA h2 hag h hh M hM l hl (h.cycles (h.pre l dt sub s)) sub.1 (hcyc _) (by positivity) dt (h.pre l dt sub s)
      have hc := hg.finest l (by omega)
      have hz : ∀ s : AmrState 1 K X, regSum g (l + 1) s = 0 := fun s => by simp [regSum, hc, flowInto]
      have f3 : TreeInv g dx l (perLength area (h.pre l dt sub s)) (perLength area (advanceNonRecursively (axialDirOps g dx area h l) M 1 l
          (h.cycles (h.pre l dt sub s)) sub.1 dt (h.pre l dt sub s)).1) := by
        refine ⟨?_, fun k hk => f2.others k (by omega), fun k hk => f2.regs k (by omega) (by omega)⟩
        have t := f2.total
        rw [hz, hz] at t
        rw [massFrom_succ g dx l hl, massFrom_succ g dx l hl, massFrom_congr g dx (l + 1) _ _ fun k hk => f2.others k (by omega)]
        linear_combination t
      exact ((hpre.trans f3).trans (perLength_keeps_tree area (hh.copyBack l) dx l _)).trans (perLength_keeps_tree area (hh.post l dt sub) dx l _)

theorem axial_fillAll_tree [LinearOrder K] (g : Grids 1) (dx : Nat → Fin 1 → K) (area : Nat → Int → K) (h : AmrHooks 1 K X) (hh : h.Ok g)
    (M : Split2 K (SplitState (AmrState 1 K X)) (StepErr K)) (fuel : Nat) : ∀ (l : Nat) (s : AmrState 1 K X),
    TreeInv g dx 0 (perLength area s) (perLength area (fillAllTwo (axialSys g dx area h M) fuel l s)) := by
  induction fuel with
  | zero => intro l s; exact TreeInv.refl _ _ _ _
  | succ fuel ih =>
    intro l s
    rw [fillAllTwo]
    split
    · exact (perLength_keeps_tree area (hh.fillTwo l (l - 1)) dx 0 s).trans (ih _ _)
    · exact TreeInv.refl _ _ _ _

theorem perLength_composite (g : Grids 1) (dx : Nat → Fin 1 → K) (area : Nat → Int → K) (s : AmrState 1 K X) :
    composite g dx (perLength area s) = axialComposite g dx area s := by
  unfold composite axialComposite
  refine sum_congr rfl fun l _ => ?_
  rw [mul_sum]
  refine sum_congr rfl fun i _ => ?_
  simp only [perLength, axialVolume, Fin.prod_univ_one]
  ring

theorem perLength_inflow (g : Grids 1) (dx : Nat → Fin 1 → K) (area : Nat → Int → K) (s : AmrState 1 K X) :
    ((perLength area s).log.map (boundaryInflow g dx)).sum = (s.log.map (axialInflow g area)).sum := by
  simp only [perLength, List.map_map]
  congr 1
  refine List.map_congr_left fun e _ => ?_
  obtain ⟨l, dt, d, flux⟩ := e
  have hd : d = 0 := Subsingleton.elim _ _
  subst hd
  have he : (univ.erase (0 : Fin 1)) = ∅ := by decide
  simp only [Function.comp, boundaryInflow, axialInflow, he, prod_empty, one_mul, shift_zero_one]

/-- **C166.** A subcycled time step of a tube with a varying cross section, on any properly nested hierarchy with any refinement ratios, splitting method and flux
method: if the time step succeeds and the tube is straight in the uncovered cells next to refined cells, the content of the tube has changed exactly by the inflow
through its ends. Missing: cells at the border of a refined region in which the area varies, where it fails. -/
theorem axial_amr_conserves_partial [LinearOrder K] (g : Grids 1) (hg : g.Nested) (h0 : 0 < g.levels) (dx : Nat → Fin 1 → K) (hdx : ∀ l d, dx l d ≠ 0)
    (A : K → K) (x0 : K) (hratio : ∀ l, (g.ratio (l + 1) : K) * dx (l + 1) 0 = dx l 0)
    (hA : ∀ l f, tubeArea A x0 dx l f + tubeArea A x0 dx l (f + 1) ≠ 0) (h2 : (2 : K) ≠ 0) (hst : StraightAtInterfaces g (tubeArea A x0 dx))
    (h : AmrHooks 1 K X) (hh : h.Ok g) (hcyc : ∀ s, 0 ≤ h.cycles s) (M : Split2 K (SplitState (AmrState 1 K X)) (StepErr K)) (hM : IsSplitting M)
    (maxLevels : Nat) (freq : Int) (dt : K) (s s' : AmrState 1 K X) (hlog : s.log = [])
    (hrun : advanceHierarchy (axialSys g dx (tubeArea A x0 dx) h M) maxLevels freq dt s = some (s', none)) :
    axialComposite g dx (tubeArea A x0 dx) s' = axialComposite g dx (tubeArea A x0 dx) s + (s'.log.map (axialInflow g (tubeArea A x0 dx))).sum := by
  have hag : AreasAgree g (tubeArea A x0 dx) := by
    intro l f
    simp only [tubeArea, ← hratio l]
    congr 2
    push_cast
    ring
  have hlog' : (perLength (tubeArea A x0 dx) s).log = [] := by simp [perLength, hlog]
  have key : TreeInv g dx 0 (perLength (tubeArea A x0 dx) s) (perLength (tubeArea A x0 dx) s') := by
    rw [advanceHierarchy] at hrun
    rcases hr : advanceLevel (axialSys g dx (tubeArea A x0 dx) h M) maxLevels 0 dt (0, 1) s with ⟨s1, _ | e⟩
    · have t := axial_advanceLevel_tree g hg dx hdx _ hA h2 hag hst h hh hcyc M hM maxLevels 0 dt (0, 1) s h0 (by rw [hr])
      rw [hr] at t hrun
      simp only at hrun
      split at hrun
      · cases hrun
      · split at hrun
        · simp only [Option.some.injEq, Prod.mk.injEq, and_true] at hrun
          rw [← hrun]
          exact t.trans ((perLength_keeps_tree _ (hh.fillSingle 0) dx 0 s1).trans (axial_fillAll_tree g dx _ h hh M _ _ _))
        · simp only [Option.some.injEq, Prod.mk.injEq, and_true] at hrun
          rw [← hrun]; exact t
    · rw [hr] at hrun; simp at hrun
  have := composite_of_tree key hlog'
  rwa [perLength_composite, perLength_composite, perLength_inflow] at this

/-- A tube that widens from its first cell on, and one that is straight in the cells at the borders of the refined regions. -/
def exWide (x : ℚ) : ℚ := 1 + x
def exSteps (x : ℚ) : ℚ := if x < 1 then 3 - x else if x ≤ 2 then 2 else if x ≤ 5 / 2 then x else if x ≤ 3 then 5 / 2 else if x ≤ 4 then 4 - x / 2 else 2

def exTubeStart : AmrState 1 ℚ Unit := ⟨fun l i => (i 0 : ℚ) ^ 2 + l, fun _ _ _ => 0, fun _ _ _ => 0, [], ()⟩

/-- **C166 (fails).** In a tube that widens by one area unit per unit of length the same time step changes the content of the tube by something else than the inflow
through its ends, on a nested hierarchy of three levels. -/
theorem axial_amr_not_conservative :
    ∃ (g : Grids 1) (dx : Nat → Fin 1 → ℚ) (A : ℚ → ℚ) (h : AmrHooks 1 ℚ Unit) (s s' : AmrState 1 ℚ Unit), g.Nested ∧ h.Ok g ∧
      (∀ l, (g.ratio (l + 1) : ℚ) * dx (l + 1) 0 = dx l 0) ∧ (∀ l, ∀ i ∈ g.cells l, 0 < tubeArea A 0 dx l (i 0)) ∧ s.log = [] ∧
      advanceHierarchy (axialSys g dx (tubeArea A 0 dx) h strangSplit) 3 1 (1 / 2) s = some (s', none) ∧
      axialComposite g dx (tubeArea A 0 dx) s' ≠ axialComposite g dx (tubeArea A 0 dx) s + (s'.log.map (axialInflow g (tubeArea A 0 dx))).sum := by
  have hrun : ((advanceHierarchy (axialSys exGrids (fun l _ => 1 / 2 ^ l) (tubeArea exWide 0 fun l _ => 1 / 2 ^ l) exHooks strangSplit) 3 1 (1 / 2)
      exTubeStart).map fun r => decide (r.2 = none ∧ axialComposite exGrids (fun l _ => 1 / 2 ^ l) (tubeArea exWide 0 fun l _ => 1 / 2 ^ l) r.1 ≠
        axialComposite exGrids (fun l _ => 1 / 2 ^ l) (tubeArea exWide 0 fun l _ => 1 / 2 ^ l) exTubeStart +
          (r.1.log.map (axialInflow exGrids (tubeArea exWide 0 fun l _ => 1 / 2 ^ l))).sum)) = some true := by decide +kernel
  rcases hr : advanceHierarchy (axialSys exGrids (fun l _ => 1 / 2 ^ l) (tubeArea exWide 0 fun l _ => 1 / 2 ^ l) exHooks strangSplit) 3 1 (1 / 2)
      exTubeStart with _ | ⟨s', e⟩
  · rw [hr] at hrun; cases hrun
  · rw [hr] at hrun
    simp only [Option.map_some, Option.some.injEq, decide_eq_true_eq] at hrun
    obtain ⟨rfl, hne⟩ := hrun
    refine ⟨exGrids, fun l _ => 1 / 2 ^ l, exWide, exHooks, exTubeStart, s', exGridsNested, exHooksOk, ?_, ?_, rfl, hr, hne⟩
    · intro l
      show ((2 : ℕ) : ℚ) * (1 / 2 ^ (l + 1)) = 1 / 2 ^ l
      rw [pow_succ]; push_cast; field_simp
    · intro l i hi
      have : (0 : ℚ) ≤ (i 0 : ℚ) := by
        rw [exCells] at hi
        have : 0 ≤ i 0 := by omega
        exact_mod_cast this
      simp only [tubeArea, exWide]
      positivity

/-- **C166 (averaging).** The content of a covered coarse cell after the averaging is not the content of the finer cells in it, if the area varies: the averaging takes
the plain mean. -/
theorem axial_coarsen_not_conservative :
    ∃ (g : Grids 1) (dx : Nat → Fin 1 → ℚ) (A : ℚ → ℚ) (s : AmrState 1 ℚ Unit) (i : Index 1), g.Nested ∧ i ∈ g.covered 0 ∧
      axialVolume dx (tubeArea A 0 dx) 0 i * (amrCoarsen g 1 0 s).u 0 i ≠
        ∑ f ∈ fineCells (g.ratio 1) i, axialVolume dx (tubeArea A 0 dx) 1 f * s.u 1 f :=
  ⟨exGrids, fun l _ => 1 / 2 ^ l, exWide, exTubeStart, fun _ => 2, exGridsNested, by decide +kernel, by decide +kernel⟩

/-- In a straight tube it is: the content of a covered coarse cell is that of the finer cells in it. -/
theorem straight_coarsen_conserves [CharZero K] (g : Grids 1) (dx : Nat → Fin 1 → K) (a : K) (l : Nat) (hratio : (g.ratio (l + 1) : K) * dx (l + 1) 0 = dx l 0)
    (hr : 0 < g.ratio (l + 1)) (s : AmrState 1 K X) (i : Index 1) (hi : i ∈ g.covered l) (hci : i ∈ g.cells l) :
    axialVolume dx (fun _ _ => a) l i * (amrCoarsen g (l + 1) l s).u l i =
      ∑ f ∈ fineCells (g.ratio (l + 1)) i, axialVolume dx (fun _ _ => a) (l + 1) f * s.u (l + 1) f := by
  have hr' : (g.ratio (l + 1) : K) ≠ 0 := by exact_mod_cast hr.ne'
  simp only [amrCoarsen, hi, hci, and_self, if_true, axialVolume, ← mul_sum, ← hratio]
  field_simp

/-- The hypotheses of the partial theorem are met by a tube that narrows, widens and narrows again within the cells away from the borders. -/
example : StraightAtInterfaces exGrids (tubeArea exSteps 0 fun l _ => 1 / 2 ^ l) ∧
    (∃ f, tubeArea exSteps 0 (fun l _ => 1 / 2 ^ l) 0 f ≠ tubeArea exSteps 0 (fun l _ => 1 / 2 ^ l) 0 (f + 1)) ∧
    (advanceHierarchy (axialSys exGrids (fun l _ => 1 / 2 ^ l) (tubeArea exSteps 0 fun l _ => 1 / 2 ^ l) exHooks strangSplit) 3 1 (1/2)
      exTubeStart).map (fun r => (r.2, r.1.log.length)) = some (none, 7) := by
  refine ⟨?_, ⟨0, by decide +kernel⟩, by decide +kernel⟩
  intro l i hi
  match l with
  | 0 => revert i; decide +kernel
  | 1 => revert i; decide +kernel
  | l + 2 =>
    intro h
    simp [exCovered] at h

end Fub
