import Verif.Lemmas.Context
import Verif.Model.RunLoop
import Mathlib.Algebra.Order.Ring.Rat
import Mathlib.Algebra.Order.Field.Rat

/-!
# Properties of level clocks, regridding and copying (C14, C46, C47, and the AMReX part of C04)
-/

namespace Fub

section
variable {K G Opt Meth Cb : Type} [Field K] [LinearOrder K]

/-! ### C14 -/

/-- **C14 (grids do not change).** Start with all level clocks at `T`, any number of levels and any refinement ratios. If the regrids during the
step find unchanged grids, then a hierarchy step by `dt` succeeds, and afterwards the clock of each level and the time stored
in the patch hierarchy are `T + dt`, and the cycle count of level `l` has grown by `r₁ ⋯ r_l` in both places. -/
theorem clocks_agree_partial (ratio : Nat → Nat) (hr : ∀ j, (ratio j : K) ≠ 0) (c : Ctx K G Opt Meth Cb) (M : Nat) (T dt : K)
    (hscript : c.script = []) (hlen : c.data.length = c.hier.length) (h0 : 0 < c.hier.length) (hM : c.hier.length ≤ M)
    (hT : ∀ d ∈ c.data, d.time = T) :
    (advanceLevel (clockSys ratio) M 0 dt (0, 1) c).2 = none ∧
    ∀ l d, c.data[l]? = some d →
      let c' := (advanceLevel (clockSys ratio) M 0 dt (0, 1) c).1.postAdvanceHierarchy
      c'.getTimePoint l = some (T + dt) ∧
      c'.getCycles l = some (d.cycles + ((∏ j ∈ Finset.Ioc 0 l, ratio j : Nat) : Int)) ∧
      ∃ h, c'.hier[l]? = some h ∧ h.time = T + dt ∧ h.cycles = d.cycles + (∏ j ∈ Finset.Ioc 0 l, ratio j : Nat) := by
  obtain ⟨h1, h2⟩ := advanceLevel_clock ratio hr M 0 dt (0, 1) c hscript hlen h0 (by omega)
  refine ⟨h1, ?_⟩
  generalize (advanceLevel (clockSys ratio) M 0 dt (0, 1) c).1 = c1 at h2
  intro l d hd
  have hlt : l < c.data.length := by
    by_contra hc; rw [List.getElem?_eq_none (by omega)] at hd; cases hd
  obtain ⟨d', a1, a2, a3⟩ := h2.above l d (Nat.zero_le l) hd
  obtain ⟨d0, hd0⟩ : ∃ d0, c.data[0]? = some d0 := ⟨c.data[0], by rw [List.getElem?_eq_getElem]⟩
  obtain ⟨d0', b1, b2, b3⟩ := h2.above 0 d0 le_rfl hd0
  have hTd : d.time = T := hT d (List.mem_of_getElem? hd)
  have hT0 : d0.time = T := hT d0 (List.mem_of_getElem? hd0)
  have hh : l < c1.hier.length := by rw [h2.hlen, ← hlen]; exact hlt
  simp only [Ctx.postAdvanceHierarchy, b1, Ctx.getTimePoint, Ctx.getCycles, a1, Option.map_some]
  refine ⟨by rw [a2, hTd], by rw [a3], ?_⟩
  refine ⟨{ c1.hier[l] with time := d0'.time, cycles := d'.cycles }, ?_, ?_, a3⟩
  · rw [List.getElem?_mapIdx, List.getElem?_eq_getElem hh]
    simp [a1]
  · simp only; rw [b2, hT0]

/-- level 0 of the context and of the hierarchy agree on time `T` and cycle `n` -/
def CoarseAt (T : K) (n : Int) (c : Ctx K G Opt Meth Cb) : Prop :=
  ∃ d h, c.data[0]? = some d ∧ c.hier[0]? = some h ∧ d.time = T ∧ h.time = T ∧ d.cycles = n ∧ h.cycles = n

omit [Field K] in
theorem CoarseAt.pre {T : K} {n : Int} {c : Ctx K G Opt Meth Cb} (h : CoarseAt T n c) (l : Nat) (sub : Nat × Nat) :
    CoarseAt T n (c.preAdvanceLevel l sub) := by
  obtain ⟨d, hh, h1, h2, h3, h4, h5, h6⟩ := h
  have hself : CoarseAt T n c := ⟨d, hh, h1, h2, h3, h4, h5, h6⟩
  unfold Ctx.preAdvanceLevel
  split
  · split
    · exact hself
    · split
      · have hreg : (c.regridAllFiner l).1.data = c.data ∧ (c.regridAllFiner l).1.hier[0]? = some hh := by
          unfold Ctx.regridAllFiner
          split
          · split
            · refine ⟨rfl, ?_⟩
              have hlen : 0 < c.hier.length := by
                by_contra hc; rw [List.getElem?_eq_none (by omega)] at h2; cases h2
              rw [List.getElem?_append_left (by simp; omega), List.getElem?_take_of_lt (by omega)]
              exact h2
            · exact ⟨rfl, h2⟩
          · exact ⟨rfl, h2⟩
        have hmark : CoarseAt T n ((c.regridAllFiner l).1.markRegrid l) ∧
            ((c.regridAllFiner l).1.markRegrid l).hier[0]? = some hh := by
          refine ⟨⟨if l ≤ 0 then { d with regridTime := d.time } else d, hh, ?_, hreg.2, ?_, h4, ?_, h6⟩, hreg.2⟩
          · simp [Ctx.markRegrid, hreg.1, h1]
          · split <;> exact h3
          · split <;> exact h5
        dsimp only
        split
        · refine ⟨resetLevel ((c.regridAllFiner l).1.markRegrid l).data (c.regridAllFiner l).2 0 hh, hh, ?_, hmark.2, ?_, h4, ?_, h6⟩
          · simp [Ctx.reset, hmark.2]
          · exact h4
          · exact h6
        · exact hmark.1
      · exact hself
  · exact hself

theorem CoarseAt.copyBack {T : K} {n : Int} {c : Ctx K G Opt Meth Cb} (h : CoarseAt T n c) (ratio : Nat → Nat) (l : Nat) :
    CoarseAt T n ((clockSys ratio).copyBack l c) := by
  obtain ⟨d, hh, h1, h2, h3, h4, h5, h6⟩ := h
  simp only [clockSys]
  split
  · exact ⟨d, hh, h1, h2, h3, h4, h5, h6⟩
  · rename_i d' _
    refine ⟨d, if l = 0 then { hh with data := d'.scratch } else hh, h1, ?_, h3, ?_, h5, ?_⟩
    · simp [List.getElem?_modify, h2]
    · split <;> exact h4
    · split <;> exact h6

omit [LinearOrder K] in
theorem CoarseAt.post {T : K} {n : Int} {c : Ctx K G Opt Meth Cb} (h : CoarseAt T n c) (l : Nat) (hl : 0 < l) (dt : K)
    (sub : Nat × Nat) : CoarseAt T n (c.postAdvanceLevel l dt sub) := by
  obtain ⟨d, hh, h1, h2, h3, h4, h5, h6⟩ := h
  unfold Ctx.postAdvanceLevel
  split
  · exact ⟨d, hh, h1, h2, h3, h4, h5, h6⟩
  · refine ⟨d, hh, ?_, ?_, h3, h4, h5, h6⟩
    · rw [List.getElem?_set_ne (by omega)]; exact h1
    · dsimp only
      split
      · rw [List.getElem?_modify]; simp [h2, show l ≠ 0 by omega]
      · exact h2

theorem CoarseAt.advance {T : K} {n : Int} (ratio : Nat → Nat) : ∀ (fuel l : Nat) (dt : K) (sub : Nat × Nat)
    (c : Ctx K G Opt Meth Cb), CoarseAt T n c → 0 < l →
    (advanceLevel (clockSys ratio) fuel l dt sub c).2 = none ∧
    CoarseAt T n (advanceLevel (clockSys ratio) fuel l dt sub c).1 := by
  intro fuel
  induction fuel with
  | zero => intro l dt sub c h _; exact ⟨rfl, h⟩
  | succ fuel ih =>
    intro l dt sub c h hl
    have hloop : ∀ (m r : Nat) (dt : K) (k : Nat) (c : Ctx K G Opt Meth Cb), CoarseAt T n c →
        (forSub (fun r s => advanceLevel (clockSys ratio) fuel (l + 1) dt (r, k) s) m r c).2 = none ∧
        CoarseAt T n (forSub (fun r s => advanceLevel (clockSys ratio) fuel (l + 1) dt (r, k) s) m r c).1 := by
      intro m
      induction m with
      | zero => intro r dt k c h; exact ⟨rfl, h⟩
      | succ m ihm =>
        intro r dt k c h
        obtain ⟨g1, g2⟩ := ih (l + 1) dt (r, k) c h (by omega)
        rw [forSub]
        generalize advanceLevel (clockSys ratio) fuel (l + 1) dt (r, k) c = x at g1 g2
        obtain ⟨c1, e⟩ := x
        simp only at g1 g2
        subst g1
        simp only [andThen]
        exact ihm (r + 1) dt k c1 g2
    rw [advanceLevel]
    have hp : CoarseAt T n ((clockSys ratio).pre l dt sub c) := h.pre l sub
    generalize (clockSys ratio).pre l dt sub c = c1 at hp
    have hr : ∀ x : Ctx K G Opt Meth Cb × Option (StepErr K), x.2 = none → CoarseAt T n x.1 →
        ∃ c2, x = (c2, none) ∧ CoarseAt T n c2 := by
      rintro ⟨a, b⟩ h1 h2; simp only at h1 h2; subst h1; exact ⟨a, rfl, h2⟩
    dsimp only
    generalize hx : (if (clockSys ratio).levelExists c1 (l + 1) = true then _ else (c1, none)) = x
    have hx' : x.2 = none ∧ CoarseAt T n x.1 := by
      rw [← hx]
      split
      · obtain ⟨g1, g2⟩ := hloop (ratio (l + 1)) 0 (dt / (ratio (l + 1) : K)) (ratio (l + 1)) c1 hp
        refine ⟨?_, g2⟩
        exact congrArg (Option.map _) g1
      · exact ⟨rfl, hp⟩
    obtain ⟨c2, rfl, hc2⟩ := hr x hx'.1 hx'.2
    simp only [andThen, show (clockSys ratio).adv l dt sub c2 = (c2, none) from rfl, scaleRes, Option.map_none,
        show ∀ c, (clockSys (K := K) (G := G) (Opt := Opt) (Meth := Meth) (Cb := Cb) ratio).corr (l + 1) l dt c = c from fun _ => rfl,
        show ∀ c, (clockSys (K := K) (G := G) (Opt := Opt) (Meth := Meth) (Cb := Cb) ratio).complete l dt c = c from fun _ => rfl,
        show ∀ c, (clockSys (K := K) (G := G) (Opt := Opt) (Meth := Meth) (Cb := Cb) ratio).coarsen (l + 1) l c = c from fun _ => rfl,
        show ∀ c, (clockSys (K := K) (G := G) (Opt := Opt) (Meth := Meth) (Cb := Cb) ratio).post l dt sub c = (c.postAdvanceLevel l dt sub, none) from fun _ => rfl,
        ite_self]
    exact ⟨trivial, (hc2.copyBack ratio l).post l hl dt sub⟩

/-- **C14 (coarse level, any regridding).** Whatever the regrids during the step do: the coarse clock is advanced by exactly `dt`, its
cycle by one, and afterwards each level of the patch hierarchy stores the time `T + dt`. -/
theorem coarse_clock_exact (ratio : Nat → Nat) (c : Ctx K G Opt Meth Cb) (M : Nat) (hM : 0 < M) (T dt : K) (n : Int)
    (hdata : (c.getTimePoint 0, c.getCycles 0) = (some T, some n))
    (hhier : (c.hier[0]?).map (fun h => (h.time, h.cycles)) = some (T, n)) :
    (advanceLevel (clockSys ratio) M 0 dt (0, 1) c).2 = none ∧
    let c' := (advanceLevel (clockSys ratio) M 0 dt (0, 1) c).1.postAdvanceHierarchy
    c'.getTimePoint 0 = some (T + dt) ∧ c'.getCycles 0 = some (n + 1) ∧ (∀ h ∈ c'.hier, h.time = T + dt) ∧
    (c'.hier[0]?).map (·.cycles) = some (n + 1) := by
  have h : CoarseAt T n c := by
    simp only [Ctx.getTimePoint, Ctx.getCycles, Prod.mk.injEq, Option.map_eq_some_iff] at hdata
    obtain ⟨⟨d, h1, h2⟩, ⟨d', h1', h3⟩⟩ := hdata
    rw [h1] at h1'; cases h1'
    simp only [Option.map_eq_some_iff, Prod.mk.injEq] at hhier
    obtain ⟨hh, h4, h5, h6⟩ := hhier
    exact ⟨d, hh, h1, h4, h2, h5, h3, h6⟩
  obtain ⟨fuel, rfl⟩ : ∃ f, M = f + 1 := ⟨M - 1, by omega⟩
  rw [advanceLevel]
  have hp : CoarseAt T n ((clockSys ratio).pre 0 dt (0, 1) c) := h.pre 0 (0, 1)
  generalize (clockSys ratio).pre 0 dt (0, 1) c = c1 at hp
  have hloop : ∀ (m r : Nat) (dt : K) (k : Nat) (c : Ctx K G Opt Meth Cb), CoarseAt T n c →
      (forSub (fun r s => advanceLevel (clockSys ratio) fuel (0 + 1) dt (r, k) s) m r c).2 = none ∧
      CoarseAt T n (forSub (fun r s => advanceLevel (clockSys ratio) fuel (0 + 1) dt (r, k) s) m r c).1 := by
    intro m
    induction m with
    | zero => intro r dt k c h; exact ⟨rfl, h⟩
    | succ m ihm =>
      intro r dt k c h
      obtain ⟨g1, g2⟩ := CoarseAt.advance ratio fuel (0 + 1) dt (r, k) c h (by omega)
      rw [forSub]
      generalize advanceLevel (clockSys ratio) fuel (0 + 1) dt (r, k) c = x at g1 g2
      obtain ⟨c1, e⟩ := x
      simp only at g1 g2
      subst g1
      simp only [andThen]
      exact ihm (r + 1) dt k c1 g2
  have hr : ∀ x : Ctx K G Opt Meth Cb × Option (StepErr K), x.2 = none → CoarseAt T n x.1 →
      ∃ c2, x = (c2, none) ∧ CoarseAt T n c2 := by
    rintro ⟨a, b⟩ h1 h2; simp only at h1 h2; subst h1; exact ⟨a, rfl, h2⟩
  dsimp only
  generalize hx : (if (clockSys ratio).levelExists c1 (0 + 1) = true then _ else (c1, none)) = x
  have hx' : x.2 = none ∧ CoarseAt T n x.1 := by
    rw [← hx]
    split
    · obtain ⟨g1, g2⟩ := hloop (ratio (0 + 1)) 0 (dt / (ratio (0 + 1) : K)) (ratio (0 + 1)) c1 hp
      refine ⟨?_, g2⟩
      exact congrArg (Option.map _) g1
    · exact ⟨rfl, hp⟩
  obtain ⟨c2, rfl, hc2⟩ := hr x hx'.1 hx'.2
  simp only [andThen, show (clockSys ratio).adv 0 dt (0, 1) c2 = (c2, none) from rfl, scaleRes, Option.map_none,
      show ∀ c, (clockSys (K := K) (G := G) (Opt := Opt) (Meth := Meth) (Cb := Cb) ratio).corr (0 + 1) 0 dt c = c from fun _ => rfl,
      show ∀ c, (clockSys (K := K) (G := G) (Opt := Opt) (Meth := Meth) (Cb := Cb) ratio).complete 0 dt c = c from fun _ => rfl,
      show ∀ c, (clockSys (K := K) (G := G) (Opt := Opt) (Meth := Meth) (Cb := Cb) ratio).coarsen (0 + 1) 0 c = c from fun _ => rfl,
      show ∀ c, (clockSys (K := K) (G := G) (Opt := Opt) (Meth := Meth) (Cb := Cb) ratio).post 0 dt (0, 1) c = (c.postAdvanceLevel 0 dt (0, 1), none) from fun _ => rfl,
      ite_self]
  refine ⟨trivial, ?_⟩
  obtain ⟨d, hh, h1, h2, h3, h4, h5, h6⟩ := hc2.copyBack ratio 0
  generalize (clockSys ratio).copyBack 0 c2 = c3 at h1 h2
  have hlen : 0 < c3.data.length := by
    by_contra hc; rw [List.getElem?_eq_none (by omega)] at h1; cases h1
  have e0 : (c3.postAdvanceLevel 0 dt (0, 1)).data[0]? = some { d with time := d.time + dt, cycles := d.cycles + 1 } := by
    simp [Ctx.postAdvanceLevel, h1, List.getElem?_set_self hlen]
  have e1 : (c3.postAdvanceLevel 0 dt (0, 1)).hier[0]? = some { hh with time := d.time + dt, cycles := d.cycles + 1 } := by
    simp [Ctx.postAdvanceLevel, h1, h2]
  generalize c3.postAdvanceLevel 0 dt (0, 1) = c4 at e0 e1
  simp only [Ctx.postAdvanceHierarchy, e0, Ctx.getTimePoint, Ctx.getCycles, Option.map_some, h3, h5]
  refine ⟨trivial, trivial, ?_, ?_⟩
  · intro h hm
    rw [List.mem_mapIdx] at hm
    obtain ⟨i, hi, rfl⟩ := hm
    rfl
  · rw [List.getElem?_mapIdx, e1, Option.map_some]; simp [e0, h5]

end

/-- Four levels with ratio 2 at time 0; the only regrid that changes something remakes level 3, when the second step of level 1 starts. -/
def fourLevels : Ctx ℚ Nat Unit Unit Unit where
  options := ()
  hier := List.replicate 4 ⟨0, 0, 7⟩
  maxLevels := 4
  data := List.replicate 4 ⟨0, 0, 0, 7⟩
  method := ()
  feedback := some ()
  userStableDt := none
  countPerLevel := false
  script := [[.remake 8]]

/-- **C14 is false in general.** With four levels, a regrid of the finest level in the middle of a coarse step resets the clock of level 1
to the beginning of the coarse step (`ResetHierarchyConfiguration` reads back the stored times, which are only updated after the last
sub-step): after a step by 1 the clock of level 1 is at 1/2. -/
theorem clock_wrong_after_regrid :
    let c' := (advanceLevel (clockSys (fun _ => 2)) 4 0 1 (0, 1) fourLevels).1.postAdvanceHierarchy
    (c'.getTimePoint 0, c'.getTimePoint 1, c'.getTimePoint 2, c'.getTimePoint 3) =
      (some 1, some (1 / 2), some 1, some 1) := by decide +kernel

/-- the hypotheses of `clocks_agree_partial` and `coarse_clock_exact` are met -/
example : ({ fourLevels with script := [] } : Ctx ℚ Nat Unit Unit Unit).data.length = 4 ∧
    (fourLevels.getTimePoint 0, fourLevels.getCycles 0) = (some 0, some 0) := by decide +kernel

section
variable {K G Opt Meth Cb : Type} [Field K] [LinearOrder K]

/-! ### C47 -/

omit [Field K] [LinearOrder K] in
theorem applyRegrid_time (t : K) (acts : List (RegridAct G)) (hs : List (HierLevel K G)) (h : ∀ x ∈ hs, x.time = t) :
    ∀ x ∈ applyRegrid t acts hs, x.time = t := by
  induction acts generalizing hs with
  | nil => simpa [applyRegrid] using h
  | cons a acts ih =>
    intro x hx
    cases a <;> cases hs <;> simp only [applyRegrid, List.mem_cons, List.not_mem_nil] at hx
    · rcases hx with rfl | hx
      · exact h _ (by simp)
      · exact ih _ (fun y hy => h y (by simp [hy])) x hx
    · rcases hx with rfl | hx
      · rfl
      · exact ih _ (fun y hy => h y (by simp [hy])) x hx
    · rcases hx with rfl | hx
      · rfl
      · exact ih _ (by simp) x hx
    · rcases hx with rfl | hx
      · rename_i hd _; exact h hd List.mem_cons_self
      · exact ih _ (fun y hy => h y (by simp [hy])) x hx

omit [Field K] [LinearOrder K] in
/-- **C47 (times).** Regridding the levels finer than `l`, whatever it decides, leaves the levels up to `l` alone; and if
they and the finer levels are at the same time, all levels that exist afterwards are at that time. -/
theorem regrid_times (c : Ctx K G Opt Meth Cb) (l : Nat) :
    (∀ k ≤ l, (c.regridAllFiner l).1.hier[k]? = c.hier[k]?) ∧
    (∀ t, (∀ k h, l ≤ k → c.hier[k]? = some h → h.time = t) →
      ∀ k h, l ≤ k → (c.regridAllFiner l).1.hier[k]? = some h → h.time = t) := by
  unfold Ctx.regridAllFiner
  split
  · split
    · rename_i acts rest h hs hl
      have hlen : l < c.hier.length := by
        by_contra hc; rw [List.getElem?_eq_none (by omega)] at hl; cases hl
      constructor
      · intro k hk
        simp only
        rw [List.getElem?_append_left (by simp; omega), List.getElem?_take_of_lt (by omega)]
      · intro t ht k x hk hx
        have hht : h.time = t := ht l h le_rfl hl
        simp only at hx
        by_cases hkl : k = l
        · subst hkl
          rw [List.getElem?_append_left (by simp; omega), List.getElem?_take_of_lt (by omega)] at hx
          exact ht k x le_rfl hx
        · rw [List.getElem?_append_right (by simp; omega)] at hx
          refine applyRegrid_time t acts (c.hier.drop (l + 1)) ?_ x (by rw [← hht]; exact List.mem_of_getElem? hx)
          intro y hy
          obtain ⟨i, hi⟩ := List.getElem?_of_mem hy
          rw [List.getElem?_drop] at hi
          exact ht (l + 1 + i) y (by omega) hi
    · exact ⟨fun _ _ => rfl, fun t h => h⟩
  · exact ⟨fun _ _ => rfl, fun t h => h⟩

omit [Field K] in
/-- **C47 (once per time point).** After `PreAdvanceLevel` has regridded for level `l`, a further call for this or a finer level at the
same time does nothing. -/
theorem regrid_once (c : Ctx K G Opt Meth Cb) (l k n m : Nat) (hlk : l ≤ k)
    (h : ∃ d, c.data[l]? = some d ∧ d.regridTime ≠ d.time) :
    (c.preAdvanceLevel l (0, n)).preAdvanceLevel k (0, m) = c.preAdvanceLevel l (0, n) := by
  obtain ⟨d, hd, hne⟩ := h
  have key : ∀ d', (c.preAdvanceLevel l (0, n)).data[k]? = some d' → d'.regridTime = d'.time := by
    intro d' hd'
    simp only [Ctx.preAdvanceLevel, hd, if_true, ne_eq, hne, not_false_iff] at hd'
    split at hd'
    · simp only [Ctx.reset, List.getElem?_mapIdx, Option.map_eq_some_iff] at hd'
      obtain ⟨h', _, rfl⟩ := hd'
      rfl
    · simp only [Ctx.markRegrid, List.getElem?_mapIdx, Option.map_eq_some_iff] at hd'
      obtain ⟨h', _, rfl⟩ := hd'
      rw [if_pos hlk]
  generalize c.preAdvanceLevel l (0, n) = c1 at key
  unfold Ctx.preAdvanceLevel
  rw [if_pos rfl]
  split
  · rfl
  · rename_i d' hd'
    rw [if_neg (not_not.mpr (key d' hd'))]

/-! ### C46 and C04 -/

omit [Field K] [LinearOrder K] in
/-- **C46 (what a copy keeps).** A copied context has the same options, hierarchy (data, times, cycles) and method. -/
theorem context_copy_keeps (c : Ctx K G Opt Meth Cb) :
    c.copy.options = c.options ∧ c.copy.hier = c.hier ∧ c.copy.method = c.method ∧ c.copy.maxLevels = c.maxLevels :=
  ⟨rfl, rfl, rfl, rfl⟩

omit [Field K] [LinearOrder K] in
/-- **C46 (after preparation).** If the level data of the original agrees with its hierarchy and the original has no pending regrid,
then preparing the copy (`PreAdvanceHierarchy`) restores the level data exactly. -/
theorem context_copy_prepared_partial (c : Ctx K G Opt Meth Cb) (h0 : c.hier ≠ [])
    (hsync : c.data = c.hier.map (fun h => ⟨h.time, h.time, h.cycles, h.data⟩)) :
    c.copy.preAdvanceHierarchy.data = c.data := by
  have hlen : c.copy.data.length ≠ c.copy.hier.length := by
    have : c.hier.length ≠ 0 := by simpa using h0
    simp [Ctx.copy]; omega
  rw [Ctx.preAdvanceHierarchy, if_pos hlen, Ctx.reset, hsync]
  simp only [Ctx.copy]
  apply List.ext_getElem?
  intro i
  rw [List.getElem?_mapIdx, List.getElem?_map]
  cases c.hier[i]? <;> simp [resetLevel]

omit [Field K] [LinearOrder K] in
/-- **C46 is false: callbacks.** A copy never has a feedback function or a user-defined step size function, also after preparation. -/
theorem context_copy_loses_callbacks (c : Ctx K G Opt Meth Cb) :
    c.copy.preAdvanceHierarchy.feedback = none ∧ c.copy.preAdvanceHierarchy.userStableDt = none := by
  unfold Ctx.preAdvanceHierarchy
  split <;> exact ⟨rfl, rfl⟩

omit [Field K] [LinearOrder K] in
/-- **C46 is false: clocks.** `GetTimePoint` and `GetCycles` of a copy are undefined for every level. -/
theorem context_copy_clocks_undefined (c : Ctx K G Opt Meth Cb) (l : Nat) :
    c.copy.getTimePoint l = none ∧ c.copy.getCycles l = none := ⟨rfl, rfl⟩

omit [Field K] in
/-- **C46 is false: pending regrid.** A prepared copy never regrids at the beginning of its first step: `PreAdvanceLevel(0)` leaves it
unchanged, whatever the regrid of the original would have done. -/
theorem context_copy_no_regrid (c : Ctx K G Opt Meth Cb) (h0 : c.hier ≠ []) (n l : Nat) :
    (c.copy.preAdvanceHierarchy).preAdvanceLevel l (0, n) = c.copy.preAdvanceHierarchy := by
  have hlen : c.copy.data.length ≠ c.copy.hier.length := by
    have : c.hier.length ≠ 0 := by simpa using h0
    simp [Ctx.copy]; omega
  rw [Ctx.preAdvanceHierarchy, if_pos hlen]
  unfold Ctx.preAdvanceLevel
  rw [if_pos rfl]
  split
  · rfl
  · rename_i d hd
    simp only [Ctx.reset, List.getElem?_mapIdx, Option.map_eq_some_iff] at hd
    obtain ⟨h', _, rfl⟩ := hd
    rw [if_neg (by simp [resetLevel])]

/-- **C01 for an AMReX context.** The time and the cycle number the run loop works with are those of the coarsest level, before the first step those of
the hierarchy. -/
theorem ctx_run_clock (est : Ctx K G Opt Meth Cb → K) (advance : Ctx K G Opt Meth Cb → K → Ctx K G Opt Meth Cb × Option K)
    (c : Ctx K G Opt Meth Cb) (d : LevelClock K G) (ds : List (LevelClock K G)) (h : HierLevel K G) (hs : List (HierLevel K G))
    (hd : c.data = d :: ds) (hh : c.hier = h :: hs) :
    (ctxSolver est advance).time c = some d.time ∧ (ctxSolver est advance).cycles c = some d.cycles ∧
      (ctxSolver est advance).gridTime c = h.time ∧ (ctxSolver est advance).gridCycles c = h.cycles := by
  simp [ctxSolver, Ctx.getTimePoint, Ctx.getCycles, hd, hh]

/-- **C04 is false with an AMReX context and a cycle limit.** If backups are enabled, `max_cycles` is non-negative and the first step fails,
then the run loop reads the cycle count of the restored context, which is undefined. -/
theorem rollback_undefined (est : Ctx K G Opt Meth Cb → K) (advance : Ctx K G Opt Meth Cb → K → Ctx K G Opt Meth Cb × Option K)
    (o : RunOptions K) (w : Output K (Ctx K G Opt Meth Cb)) (c : Ctx K G Opt Meth Cb) (hb : o.doBackup = true)
    (hm : 0 ≤ o.maxCycles) (hc : (ctxSolver est advance).gridCycles c < o.maxCycles)
    (ht : (ctxSolver est advance).gridTime c + o.eps < o.finalTime)
    (hfail : ∀ c dt, (advance c dt).2 ≠ none) :
    (RunLoop.run (ctxSolver est advance) o w c 2).pc = .ub := by
  have hm' : ¬ o.maxCycles < 0 := by omega
  simp only [RunLoop.run, Function.iterate_succ, Function.iterate_zero, Function.comp, id, RunLoop.init, RunLoop.step, ht, hc, or_true,
    and_true, if_true, RunLoop.body, hb]
  split
  · simp only [RunLoop.endBody, ht, if_true, cyclesOk, hm', if_false]
    rfl
  · rename_i h
    exact absurd h (hfail _ _)

end

/-- **C47 is false: cycles.** Remaking a level resets its cycle count: level 1 had 5 cycles before and none after the regrid. -/
theorem regrid_loses_cycles :
    let c : Ctx ℚ Nat Unit Unit Unit :=
      { fourLevels with
        hier := [⟨1, 3, 7⟩, ⟨1, 5, 7⟩], script := [[.remake 8]] }
    (c.regridAllFiner 0).1.hier = [⟨1, 3, 7⟩, ⟨1, 0, 8⟩] := by decide +kernel

/-- **C46 (face data).** Copying a level with face data, as the constructor allocates it, is faithful in one and three dimensions. -/
theorem faces_copy_partial {G : Type} (dim arena : Nat) (g : G) (h : dim ≠ 2) :
    (Faces.make dim arena g).copy = some (Faces.make dim arena g) := by
  by_cases h2 : 2 ≤ dim
  · have h3 : 3 ≤ dim := by omega
    simp [Faces.make, Faces.copy, h2, h3]
  · have h3 : ¬ 3 ≤ dim := by omega
    simp [Faces.make, Faces.copy, h2, h3]

/-- **C46 is false: face data in two dimensions.** The copy dereferences a null pointer. -/
theorem faces_copy_null_2d {G : Type} (arena : Nat) (g : G) : (Faces.make 2 arena g).copy = none := rfl

/-- **C46 (multi block, partial).** With at least as many tubes as plena the copy has all members. -/
theorem multiBlock_copy_partial {C : Type} (tubes plena : List C) (h : plena.length ≤ tubes.length) :
    multiBlockCopy tubes plena = (tubes, plena) := by
  simp [multiBlockCopy, Nat.min_eq_right h]

/-- **C46 is false: multi block.** A copy of a multi block context with fewer tubes than plena loses plena. -/
theorem multiBlock_copy_loses_plena {C : Type} (tubes plena : List C) (h : tubes.length < plena.length) :
    (multiBlockCopy tubes plena).2.length < plena.length := by
  simp [multiBlockCopy]; omega

/-- the hypotheses of the theorems on copies are met by `fourLevels`, which has a feedback function and whose copy has none -/
example : fourLevels.hier ≠ [] ∧ fourLevels.data = fourLevels.hier.map (fun h => ⟨h.time, h.time, h.cycles, h.data⟩) ∧
    fourLevels.feedback = some () ∧ fourLevels.copy.feedback = none := by decide +kernel

/-- the hypothesis of `regrid_once` is met -/
example : ∃ d, ({ fourLevels with data := List.replicate 4 ⟨1, 0, 0, 7⟩ } : Ctx ℚ Nat Unit Unit Unit).data[0]? = some d ∧
    d.regridTime ≠ d.time := ⟨⟨1, 0, 0, 7⟩, by decide +kernel, by decide +kernel⟩

end Fub
