import Verif.Spec.Samrai
import Mathlib.Tactic.Ring
import Mathlib.Tactic.Linarith
import Mathlib.Algebra.Order.Field.Basic
import Mathlib.Algebra.Field.Rat
import Mathlib.Algebra.Order.Ring.Rat
import Mathlib.Data.Fin.VecNotation
import Mathlib.Data.List.GetD
import Mathlib.Data.List.Nodup

/-!
# Theorems about the SAMRAI backend
-/

namespace Fub
variable {C K : Type}

/-! ### Which ids a call writes -/

theorem samSet_same (st : SamData C K) (level id : ℕ) (f : C → K) : samSet st level id f level id = f := by simp [samSet]

theorem samSet_ne (st : SamData C K) (level id : ℕ) (f : C → K) {l i : ℕ} (h : i ≠ id) : samSet st level id f l i = st l i := by
  simp [samSet, h]

theorem samSet_noop (st : SamData C K) (level id : ℕ) : samSet st level id (st level id) = st := by
  funext l i
  simp only [samSet]
  split
  · next h => rw [h.1, h.2]
  · rfl

/-- A fold of `samSet`s over entries whose ids avoid `i` does not change the field of `i`. -/
theorem foldl_samSet_other {α : Type} (xs : List α) (key : α → ℕ) (lev : α → ℕ) (f : SamData C K → α → C → K) (st : SamData C K) {l i : ℕ}
    (h : ∀ x ∈ xs, i ≠ key x) : xs.foldl (fun s x => samSet s (lev x) (key x) (f s x)) st l i = st l i := by
  induction xs generalizing st with
  | nil => rfl
  | cons x xs ih =>
    rw [List.foldl_cons, ih _ fun y hy => h y (List.mem_cons_of_mem _ hy), samSet_ne _ _ _ _ (h x List.mem_cons_self)]

theorem samFill_other (e : SamEnv C K) (g : SamData C K → ℕ → ℕ → C → K) (pairs : List (ℕ × ℕ)) (level : ℕ) (st : SamData C K) {l i : ℕ}
    (h : i ∉ pairs.map Prod.fst) : samFill e g pairs level st l i = st l i :=
  foldl_samSet_other pairs Prod.fst (fun _ => level) (fun _ p c => if e.inside level c then st level p.2 c else g st level p.1 c) st
    fun _ hx hi => h (hi ▸ List.mem_map_of_mem hx)

theorem samSetAll_other (st : SamData C K) (level : ℕ) (ids : List ℕ) (f : ℕ → C → K) {l i : ℕ} (h : i ∉ ids) :
    samSetAll st level ids f l i = st l i :=
  foldl_samSet_other ids.zipIdx Prod.fst (fun _ => level) (fun _ p => f p.2) st fun _ hx hi => h (hi ▸ List.fst_mem_of_mem_zipIdx hx)

theorem samCoarsen_other (avg : ℕ → (C → K) → (C → K) → C → K) (ids : List ℕ) (fine : ℕ) (st : SamData C K) {l i : ℕ} (h : i ∉ ids) :
    samCoarsen avg ids fine st l i = st l i :=
  foldl_samSet_other ids id (fun _ => fine - 1) (fun _ k => avg fine (st fine k) (st (fine - 1) k)) st fun _ hx hi => h (hi ▸ hx)

theorem samCopyIds_self (ids : List ℕ) (level : ℕ) (st : SamData C K) : samCopyIds ids ids level st = st := by
  unfold samCopyIds
  rw [List.zip_eq_zipWith, List.zipWith_self]
  induction ids with
  | nil => rfl
  | cons i ids ih => rw [List.map_cons, List.foldl_cons, samSet_noop, ih]

theorem samFillPairs_eq (ids : SamIds) (hne : ids.data ≠ []) :
    samFillPairs ids = some (ids.scratch.map fun d => (d, ids.data.getD 0 0)) := by
  obtain ⟨d, ds, hd⟩ := List.exists_cons_of_ne_nil hne
  unfold samFillPairs
  rw [hd]
  simp only [List.getElem?_cons_zero, Option.map_some, List.getD_cons_zero]
  induction ids.scratch with
  | nil => rfl
  | cons s ss ih => simp [List.mapM_cons, ih]

theorem samFillPairs_fst (ids : SamIds) (pairs : List (ℕ × ℕ)) (h : samFillPairs ids = some pairs) : pairs.map Prod.fst = ids.scratch := by
  by_cases hd : ids.data = []
  · unfold samFillPairs at h
    rw [hd] at h
    cases hs : ids.scratch with
    | nil =>
      rw [hs] at h
      simp only [List.mapM_nil] at h
      cases h; rfl
    | cons s ss =>
      rw [hs] at h
      simp [List.mapM_cons] at h
  · rw [samFillPairs_eq ids hd] at h
    cases h
    rw [List.map_map]
    exact List.map_id _

/-! ### The data path -/

/-- **C169 (hierarchy data).** Whatever sequence of member functions of the context is called, in whatever order, for whatever numeric
method: the hierarchy's variables keep their values on every level. In particular advancing a level does not change the solution. -/
theorem samrai_data_never_changes (e : SamEnv C K) (ids : SamIds) (hr : ids.Registered) (pairs : List (ℕ × ℕ))
    (hp : samFillPairs ids = some pairs) (calls : List (SamCall K)) (st : SamData C K) (level id : ℕ) (hid : id ∈ ids.data) :
    samRun e ids pairs calls st level id = st level id := by
  have hnd := hr.nodup
  rw [List.append_assoc, List.nodup_append] at hnd
  obtain ⟨-, -, hdis⟩ := hnd
  have hs : id ∉ ids.scratch := fun h => hdis id hid id (List.mem_append_left _ h) rfl
  have hf : id ∉ ids.flux := fun h => hdis id hid id (List.mem_append_right _ h) rfl
  have hq : id ∉ pairs.map Prod.fst := by rw [samFillPairs_fst ids pairs hp]; exact hs
  induction calls generalizing st with
  | nil => rfl
  | cons c cs ih =>
    show samRun e ids pairs cs (samCall e ids pairs st c) level id = _
    rw [ih]
    cases c with
    | fillSingle l => exact samFill_other _ _ _ _ _ hq
    | fillTwo l => exact samFill_other _ _ _ _ _ hq
    | applyBoundary l d =>
      simp only [samCall, samApplyBoundary]
      split
      · exact samFill_other _ _ _ _ _ hq
      · exact samFill_other _ _ _ _ _ hq
    | fluxes l dt d => exact samSetAll_other _ _ _ _ hf
    | update l dt d => exact samSetAll_other _ _ _ _ fun h => hs (List.mem_of_mem_take h)
    | complete l dt => exact samSetAll_other _ _ _ _ hs
    | accumulate l s d => rfl
    | correct f c dt => exact samCoarsen_other _ _ _ _ hf
    | resetFluxes f c => rfl
    | coarsen f c => exact samCoarsen_other _ _ _ _ hs
    | dataToScratch l => simp only [samCall, samDataToScratch, samCopyIds_self]
    | scratchToData l => simp only [samCall, samScratchToData, samCopyIds_self]

/-- **C169 (store).** `CopyScratchToData` stores the step if and only if there was nothing to store: the hierarchy already held the values of
the scratch variables. -/
theorem samrai_store_iff (e : SamEnv C K) (ids : SamIds) (level : ℕ) (st : SamData C K) :
    StoredBack e ids level st (samScratchToData ids level st) ↔
      ∀ j c, j < ids.data.length → e.inside level c = true → st level (ids.scratch.getD j 0) c = st level (ids.data.getD j 0) c := by
  simp only [samScratchToData, samCopyIds_self, StoredBack]
  exact ⟨fun h j c h1 h2 => (h j c h1 h2).symm, fun h j c h1 h2 => (h j c h1 h2).symm⟩

/-- The field of a scratch id after a fill. -/
theorem samFill_at (e : SamEnv C K) (g : SamData C K → ℕ → ℕ → C → K) (scratch : List ℕ) (src level : ℕ) (st : SamData C K)
    (s : ℕ) (hs : s ∈ scratch) :
    samFill e g (scratch.map fun d => (d, src)) level st level s = fun c => if e.inside level c then st level src c else g st level s c := by
  unfold samFill
  generalize hst : st = st0
  rw [show (List.foldl _ st0 _) = (scratch.map fun d => (d, src)).foldl
    (fun s p => samSet s level p.1 fun c => if e.inside level c then st0 level p.2 c else g st0 level p.1 c) st0 from rfl]
  clear hst
  suffices h : ∀ s0 : SamData C K, (scratch.map fun d => (d, src)).foldl
      (fun s p => samSet s level p.1 fun c => if e.inside level c then st0 level p.2 c else g st0 level p.1 c) s0 level s =
      fun c => if e.inside level c then st0 level src c else g st0 level s c from h st0
  induction scratch with
  | nil => cases hs
  | cons a as ih =>
    intro s0
    rw [List.map_cons, List.foldl_cons]
    by_cases hm : s ∈ as
    · exact ih hm _
    · rcases List.mem_cons.1 hs with rfl | h'
      · rw [foldl_samSet_other (as.map fun d => (d, src)) Prod.fst (fun _ => level)
          (fun _ p c => if e.inside level c then st0 level p.2 c else g st0 level p.1 c) _ ?_, samSet_same]
        intro x hx hi
        obtain ⟨d, hd, rfl⟩ := List.mem_map.1 hx
        exact hm (hi ▸ hd)
      · exact absurd h' hm

/-- **C170 (source of the ghost cell fill).** Both fills load *every* scratch variable from the *first* hierarchy variable. -/
theorem samrai_fill_source (e : SamEnv C K) (ids : SamIds) (hr : ids.Registered) (hne : ids.data ≠ []) (level : ℕ) (st : SamData C K)
    (j : ℕ) (hj : j < ids.data.length) (c : C) (hc : e.inside level c = true) :
    ∃ pairs, samFillPairs ids = some pairs ∧
      samFill e e.ghostOne pairs level st level (ids.scratch.getD j 0) c = st level (ids.data.getD 0 0) c ∧
      samFill e e.ghostTwo pairs level st level (ids.scratch.getD j 0) c = st level (ids.data.getD 0 0) c := by
  have hs : ids.scratch.getD j 0 ∈ ids.scratch := by
    rw [List.getD_eq_getElem _ _ (by rw [hr.one_scratch]; exact hj)]; exact List.getElem_mem _
  refine ⟨_, samFillPairs_eq ids hne, ?_, ?_⟩
  · rw [samFill_at _ _ _ _ _ _ _ hs]; simp [hc]
  · rw [samFill_at _ _ _ _ _ _ _ hs]; simp [hc]

/-- **C170 (several variables).** The fill loads the scratch variables from their own hierarchy variables for all data if and only if the
equation has at most one variable. -/
theorem samrai_fill_iff [Nontrivial K] (e : SamEnv C K) (ids : SamIds) (hr : ids.Registered) (hne : ids.data ≠ []) (level : ℕ) (c : C)
    (hc : e.inside level c = true) (pairs : List (ℕ × ℕ)) (hp : samFillPairs ids = some pairs) :
    (∀ st, ScratchLoaded e ids level st (samFill e e.ghostOne pairs level st)) ↔ ids.data.length ≤ 1 := by
  rw [samFillPairs_eq ids hne] at hp
  cases hp
  have hmem : ∀ j, j < ids.data.length → ids.scratch.getD j 0 ∈ ids.scratch := fun j hj => by
    rw [List.getD_eq_getElem _ _ (by rw [hr.one_scratch]; exact hj)]; exact List.getElem_mem _
  constructor
  · intro h
    by_contra hlen
    push Not at hlen
    obtain ⟨a, b, hab⟩ := exists_pair_ne K
    have hne01 : ids.data.getD 0 0 ≠ ids.data.getD 1 0 := by
      rw [List.getD_eq_getElem _ _ (by omega), List.getD_eq_getElem _ _ hlen]
      have hnd := hr.nodup
      rw [List.append_assoc, List.nodup_append] at hnd
      intro heq
      have := (List.Nodup.getElem_inj_iff hnd.1).1 heq
      omega
    have h1 := h (fun _ i _ => if i = ids.data.getD 0 0 then a else b) 1 c hlen hc
    rw [samFill_at _ _ _ _ _ _ _ (hmem 1 hlen)] at h1
    simp only [hc, if_true] at h1
    rw [if_neg (Ne.symm hne01)] at h1
    exact hab h1
  · intro hlen st j c' hj hc'
    have : j = 0 := by omega
    subst this
    rw [samFill_at _ _ _ _ _ _ _ (hmem 0 hj)]
    simp [hc']

/-- **C170 (partial).** What does hold for any number of variables: the first scratch variable is loaded from the first hierarchy variable.
Missing: the other variables, see `samrai_fill_iff`. -/
theorem samrai_fill_first_partial (e : SamEnv C K) (ids : SamIds) (hr : ids.Registered) (hne : ids.data ≠ []) (level : ℕ) (st : SamData C K)
    (c : C) (hc : e.inside level c = true) :
    ∃ pairs, samFillPairs ids = some pairs ∧
      samFill e e.ghostOne pairs level st level (ids.scratch.getD 0 0) c = st level (ids.data.getD 0 0) c ∧
      ∀ id ∉ ids.scratch, samFill e e.ghostOne pairs level st level id = st level id := by
  obtain ⟨pairs, h1, h2, -⟩ := samrai_fill_source e ids hr hne level st 0 (List.length_pos_iff.2 hne) c hc
  exact ⟨pairs, h1, h2, fun id hid => samFill_other _ _ _ _ _ (by rw [samFillPairs_fst ids pairs h1]; exact hid)⟩

/-- **C171 (no flux correction of the states).** Resetting, accumulating and applying the coarse-fine fluxes changes no cell data at all:
neither hierarchy variables nor scratch variables, on no level. -/
theorem samrai_no_reflux (e : SamEnv C K) (ids : SamIds) (hr : ids.Registered) (pairs : List (ℕ × ℕ)) (fine coarse : ℕ) (dt scale : K)
    (dir : ℕ) (st : SamData C K) (level id : ℕ) (hid : id ∈ ids.data ∨ id ∈ ids.scratch) :
    samRun e ids pairs [.resetFluxes fine coarse, .accumulate fine scale dir, .correct fine coarse dt] st level id = st level id := by
  have hnd := hr.nodup
  rw [List.nodup_append] at hnd
  have hf : id ∉ ids.flux := fun h => hnd.2.2 id (List.mem_append.2 hid) id h rfl
  exact samCoarsen_other _ _ _ _ hf

/-- A context for two variables with ids 0, 1 (data), 2, 3 (scratch) and 4 (flux). -/
def exSamIds : SamIds := ⟨[0, 1], [2, 3], [4]⟩

/-- A one-dimensional environment with four cells; the update adds the time step size. -/
def exSamEnv : SamEnv ℤ ℚ where
  inside := fun _ c => decide (0 ≤ c ∧ c < 4)
  ghostOne := fun _ _ _ _ => 0
  ghostTwo := fun _ _ _ _ => 0
  fluxes := fun _ _ _ q j c => q j (c - 1)
  update := fun _ dt _ q f j c => q j c + dt * (f j c - f j (c + 1))
  complete := fun _ _ q j c => q j c
  coarsenCells := fun _ f _ c => (f (2 * c) + f (2 * c + 1)) / 2
  coarsenFaces := fun _ f _ c => f (2 * c)

/-- Density `c` and energy `10`. -/
def exSamData : SamData ℤ ℚ := fun _ id c => if id = 0 then (c : ℚ) else if id = 1 then 10 else 0

/-- The step of the level integrator: after it the scratch density has moved, the hierarchy density has not, and the scratch energy is the
density. -/
example : exSamIds.Registered ∧ samFillPairs exSamIds = some [(2, 0), (3, 0)] ∧
    (let st := samRun exSamEnv exSamIds [(2, 0), (3, 0)] [.fillSingle 0, .fluxes 0 (1 / 2) 0, .update 0 (1 / 2) 0, .complete 0 (1 / 2),
      .scratchToData 0] exSamData
    (st 0 2 2, st 0 0 2, st 0 3 2, st 0 1 2)) = ((3 / 2 : ℚ), (2 : ℚ), (2 : ℚ), (10 : ℚ)) :=
  ⟨⟨rfl, by decide, by decide⟩, rfl, by decide +kernel⟩

/-! ### Clock -/

section
variable [Field K]

/-- **C172 (regridding the coarsest level).** The first call of every coarse time step, `PreAdvanceLevel(0, dt, {0, n})`, reads the time point
of level -1, outside of the vector, whatever the state; on every other existing level it is in range and returns the level. -/
theorem samrai_pre_advance (c : SamClock K) (hl : c.hierTime.length = c.hierCycles.length) :
    samPreAdvance c 0 0 = none ∧
    (∀ level : ℕ, level < c.hierTime.length → samPreAdvance c (level + 1) 0 = some (level + 1 : ℤ)) ∧
    ∀ (level sub : ℤ), sub ≠ 0 → samPreAdvance c level sub = some 0 := by
  refine ⟨rfl, fun level h => ?_, fun level sub h => by simp [samPreAdvance, h]⟩
  have h1 : samAt c.hierTime (level : ℤ) = some c.hierTime[level] := by
    simp [samAt, h]
  have h2 : samAt c.hierCycles (level : ℤ) = some (c.hierCycles[level]'(hl ▸ h)) := by
    have : level < c.hierCycles.length := hl ▸ h
    simp [samAt, this]
  have h3 : ¬ ((level : ℤ) < 0) := by omega
  simp [samPreAdvance, samRegrid, h1, h2, h3]

/-- Clock after advancing one level by a list of time step sizes. -/
def samPosts (c : SamClock K) (level : ℕ) : List K → Option (SamClock K)
  | [] => some c
  | dt :: dts => (samPostAdvance c level dt).bind fun c' => samPosts c' level dts

theorem samPosts_from (c : SamClock K) (level : ℕ) (dts : List K) (t : K) (n : ℤ) (ht : c.time[level]? = some t)
    (hn : c.cycles[level]? = some n) (hh : level < c.hierTime.length) (hk : level < c.hierCycles.length) :
    ∃ c', samPosts c level dts = some c' ∧ c'.time[level]? = some (t + dts.sum) ∧ c'.cycles[level]? = some (n + dts.length) ∧
      (dts ≠ [] → c'.hierTime[level]? = some (t + dts.sum) ∧ c'.hierCycles[level]? = some (n + dts.length)) ∧
      (∀ l, l ≠ level → c'.time[l]? = c.time[l]? ∧ c'.cycles[l]? = c.cycles[l]? ∧ c'.hierTime[l]? = c.hierTime[l]? ∧
        c'.hierCycles[l]? = c.hierCycles[l]?) := by
  induction dts generalizing c t n with
  | nil => exact ⟨c, rfl, by simpa using ht, by simpa using hn, fun h => absurd rfl h, fun l _ => ⟨rfl, rfl, rfl, rfl⟩⟩
  | cons dt dts ih =>
    have hp : samPostAdvance c level dt = some ⟨c.hierTime.set level (t + dt), c.hierCycles.set level (n + 1), c.time.set level (t + dt),
        c.cycles.set level (n + 1)⟩ := by simp [samPostAdvance, ht, hn]
    have hlt : level < c.time.length := by
      by_contra hcon
      rw [List.getElem?_eq_none (by omega)] at ht
      cases ht
    have hln : level < c.cycles.length := by
      by_contra hcon
      rw [List.getElem?_eq_none (by omega)] at hn
      cases hn
    obtain ⟨c', h1, h2, h3, h4, h5⟩ := ih ⟨c.hierTime.set level (t + dt), c.hierCycles.set level (n + 1), c.time.set level (t + dt),
        c.cycles.set level (n + 1)⟩ (t + dt) (n + 1) (by simp [hlt]) (by simp [hln]) (by simpa using hh) (by simpa using hk)
    refine ⟨c', by simp only [samPosts, hp, Option.bind_some]; exact h1, ?_, ?_, fun _ => ?_, fun l hl => ?_⟩
    · rw [h2, List.sum_cons, add_assoc]
    · rw [h3, List.length_cons]; push_cast; congr 1; ring
    · by_cases hd : dts = []
      · subst hd
        simp only [samPosts, Option.some.injEq] at h1
        subst h1
        simp [hh, hk]
      · obtain ⟨h6, h7⟩ := h4 hd
        refine ⟨by rw [h6, List.sum_cons, add_assoc], by rw [h7, List.length_cons]; push_cast; congr 1; ring⟩
    · obtain ⟨g1, g2, g3, g4⟩ := h5 l hl
      rw [g1, g2, g3, g4]
      simp [List.getElem?_set_ne (Ne.symm hl)]

/-- **C172 (clock).** After any number of advances of a level of a new context, its time point is the sum of the time step sizes and its
counter is their number, hierarchy and context agree about both, and all other levels keep theirs. -/
theorem samrai_clock (hierTime : List K) (hierCycles : List ℤ) (nlevel level : ℕ) (h1 : hierTime.length = nlevel)
    (h2 : hierCycles.length = nlevel) (hl : level < nlevel) (dts : List K) (hd : dts ≠ []) :
    ∃ c, samPosts (samNewContext hierTime hierCycles nlevel) level dts = some c ∧ c.time[level]? = some dts.sum ∧
      c.cycles[level]? = some (dts.length : ℤ) ∧ c.hierTime[level]? = some dts.sum ∧ c.hierCycles[level]? = some (dts.length : ℤ) ∧
      ∀ l < nlevel, l ≠ level → c.time[l]? = some 0 ∧ c.hierTime[l]? = hierTime[l]? := by
  obtain ⟨c, g1, g2, g3, g4, g5⟩ := samPosts_from (samNewContext hierTime hierCycles nlevel) level dts 0 0 (by simp [samNewContext, hl])
    (by simp [samNewContext, hl]) (by simpa [samNewContext, h1] using hl) (by simpa [samNewContext, h2] using hl)
  refine ⟨c, g1, by simpa using g2, by simpa using g3, by simpa using (g4 hd).1, by simpa using (g4 hd).2, fun l hln hne => ?_⟩
  obtain ⟨k1, -, k3, -⟩ := g5 l hne
  exact ⟨by rw [k1]; simp [samNewContext, hln], by rw [k3]; rfl⟩

/-- **C172 (restart).** A context created for a hierarchy that is at time `T` does not know it: after the first step of size `dt` the hierarchy
is at time `dt`, which is not `T + dt` unless `T = 0`. -/
theorem samrai_restart_loses_time (T dt : K) (hierTime : List K) (hierCycles : List ℤ) (h : hierTime.length = hierCycles.length)
    (h0 : hierTime[0]? = some T) :
    ∃ c, samPostAdvance (samNewContext hierTime hierCycles hierTime.length) 0 dt = some c ∧ c.hierTime[0]? = some dt ∧
      (dt = T + dt ↔ T = 0) := by
  have hl : 0 < hierTime.length := by
    by_contra hcon
    rw [List.getElem?_eq_none (by omega)] at h0
    cases h0
  obtain ⟨c, g1, -, -, g4, -⟩ := samrai_clock hierTime hierCycles hierTime.length 0 rfl h.symm hl [dt] (by simp)
  simp only [samPosts] at g1
  refine ⟨c, ?_, by simpa using g4, by constructor <;> intro h' <;> simpa using h'⟩
  cases hp : samPostAdvance (samNewContext hierTime hierCycles hierTime.length) 0 dt with
  | none => rw [hp] at g1; cases g1
  | some c' => rw [hp] at g1; simpa using g1

end

example : samPostAdvance (samNewContext [(5 : ℚ), 5] [10, 20] 2) 0 (1 / 2) =
    some ⟨[1 / 2, 5], [1, 20], [1 / 2, 0], [1, 0]⟩ := by decide +kernel
example : samPreAdvance (samNewContext [(5 : ℚ), 5] [10, 20] 2) 1 0 = some 1 := by decide +kernel

/-! ### Gridding -/

/-- **C173 (refinement ratio).** For every level that can be refined, the ratio with which SAMRAI builds the grids is two, and it is the ratio
the context reports to the time integration if and only if the option is two in every direction. -/
theorem samrai_ratio {n : ℕ} (refineRatio : Fin n → ℤ) (maxLevels level : ℕ) (h : 1 ≤ level ∧ level < maxLevels) :
    samNativeRatio refineRatio maxLevels level = some (fun _ => 2) ∧
    (samNativeRatio refineRatio maxLevels level = some (samContextRatio refineRatio level) ↔ ∀ d, refineRatio d = 2) := by
  simp only [samNativeRatio, h, and_self, if_true, samContextRatio, Option.some.injEq, true_and]
  exact ⟨fun h d => (congrFun h d).symm, fun h => funext fun d => (h d).symm⟩

/-- **C173 (tags).** If the tagging method sets the tags of a set of cells to one and leaves the others alone, then after the call of SAMRAI's
callback the tags on all patches are one on these cells and zero elsewhere, whatever they were before and although the method has run once
per patch. -/
theorem samrai_tags {D : Type} (patches : List ℕ) (tagLevel : (ℕ → D → ℤ) → ℕ → D → ℤ) (T : ℕ → D → Bool)
    (hT : ∀ t p c, tagLevel t p c = if T p c then 1 else t p c) (tags : ℕ → D → ℤ) (p : ℕ) (hp : p ∈ patches) (c : D) :
    samTag patches tagLevel tags p c = if T p c then 1 else 0 := by
  unfold samTag
  suffices h : ∀ (ps : List ℕ) (t : ℕ → D → ℤ), (p ∈ ps ∨ t p c = if T p c then 1 else 0) →
      ps.foldl (fun t p => tagLevel fun q c => if q = p then 0 else t q c) t p c = if T p c then 1 else 0 from h patches tags (.inl hp)
  intro ps
  induction ps with
  | nil => intro t ht; simpa using ht
  | cons q qs ih =>
    intro t ht
    rw [List.foldl_cons]
    apply ih
    by_cases hq : p ∈ qs
    · exact .inl hq
    · right
      rw [hT]
      by_cases hpq : p = q
      · simp [hpq]
      · rcases ht with h | h
        · rcases List.mem_cons.1 h with h | h
          · exact absurd h hpq
          · exact absurd h hq
        · simp only [hpq, if_false, h]
          split <;> rfl

/-- **C173 (box tagging).** In particular `ConstantBox` tags exactly the cells of the box in every patch. -/
theorem samrai_constant_box {D : Type} (patches : List ℕ) (inBox : D → Bool) (inPatch : ℕ → D → Bool) (tags : ℕ → D → ℤ) (p : ℕ)
    (hp : p ∈ patches) (c : D) (hc : inPatch p c = true) :
    samTag patches (samTagBox patches inBox inPatch) tags p c = if inBox c then 1 else 0 := by
  rw [samrai_tags patches (samTagBox patches inBox inPatch) (fun q c => decide (q ∈ patches) && (inBox c && inPatch q c))
    (fun t q c => by simp [samTagBox]) tags p hp c]
  simp [hp, hc]

example : (fun c => samTag [0, 1] (samTagBox [0, 1] (fun c : ℤ => decide (3 ≤ c ∧ c < 6)) fun p c => decide (4 * p ≤ c ∧ c < 4 * p + 4))
    (fun _ _ => 7) 0 c) 3 = 1 ∧ (fun c => samTag [0, 1] (samTagBox [0, 1] (fun c : ℤ => decide (3 ≤ c ∧ c < 6)) fun p c =>
      decide (4 * p ≤ c ∧ c < 4 * p + 4)) (fun _ _ => 7) 1 c) 6 = 0 := by decide

/-! ### Copies -/

/-- **C174 (copies of a gridding algorithm).** A copy-constructed gridding algorithm works on its own initial data and tagging method and on a new
hierarchy. After a move or an assignment its callbacks still point to the object it was made from, respectively to the temporary copy, which is
another object. -/
theorem samrai_grid_copies (g target : SamGrid) (a t h : ℕ) (ha : g.callback ≠ a) (ht : t ≠ target.addr) :
    (g.copyAt a h).callback = (g.copyAt a h).addr ∧ (g.copyAt a h).native = h ∧
    (g.moveAt a).callback ≠ (g.moveAt a).addr ∧ (g.moveAt a).native = g.native ∧
    (target.assign g t h).callback ≠ (target.assign g t h).addr ∧ (target.assign g t h).addr = target.addr :=
  ⟨rfl, rfl, ha, rfl, ht, rfl⟩

/-- **C174 (copies of a context).** A copied context shares the hierarchy of the original: whatever is written through the copy is seen through
the original. -/
theorem samrai_context_copy_shares (c : SamContextRef) {D : Type} (heap : ℕ → D) (new : D) :
    Function.update heap c.copy.gridding new c.gridding = new := by
  show Function.update heap c.gridding new c.gridding = new
  rw [Function.update_self]

/-- **C174 (exchanging the gridding algorithm).** After `ResetHierarchyConfiguration(gridding)` the boundary conditions of every level are still
those of the first gridding algorithm, however often it is exchanged. -/
theorem samrai_stale_boundaries (g nlevel : ℕ) (gs : List ℕ) (level : ℕ) (hl : level < nlevel) (hne : gs ≠ []) :
    let w := gs.foldl SamWrappers.reset (samWrappersNew g nlevel)
    w.boundaries[level]? = some g ∧ w.gridding = gs.getLast hne := by
  have hb : ∀ (gs : List ℕ) (w : SamWrappers), (gs.foldl SamWrappers.reset w).boundaries = w.boundaries := by
    intro gs
    induction gs with
    | nil => intro w; rfl
    | cons x xs ih => intro w; rw [List.foldl_cons, ih]; rfl
  refine ⟨by rw [hb]; simp [samWrappersNew, hl], ?_⟩
  conv_lhs => rw [← List.dropLast_append_getLast hne, List.foldl_append]
  rfl

example : (samWrappersNew 7 2).reset 8 = ⟨8, [7, 7]⟩ := rfl

end Fub
