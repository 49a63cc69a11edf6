import Verif.Spec.LevelIntegrator
import Verif.Props.Splitting
import Mathlib.Algebra.Order.Field.Rat

/-!
# Properties of the split level integrator (C13)
-/

namespace Fub

section
variable {K S : Type} [Field K] [LinearOrder K]

theorem minAll_spec (f : Nat → K) (n : Nat) : (∀ r ≤ n, minAll f n ≤ f r) ∧ ∃ r ≤ n, minAll f n = f r := by
  induction n with
  | zero => exact ⟨fun r hr => by rw [Nat.le_zero.mp hr]; rfl, 0, le_rfl, rfl⟩
  | succ n ih =>
    obtain ⟨h1, r, hr, h2⟩ := ih
    constructor
    · intro q hq
      by_cases h : q = n + 1
      · subst h; exact min_le_right _ _
      · exact (min_le_left _ _).trans (h1 q (by omega))
    · rcases min_choice (minAll f n) (f (n + 1)) with h | h
      · exact ⟨r, by omega, by rw [minAll, h, h2]⟩
      · exact ⟨n + 1, le_rfl, by rw [minAll, h]⟩

/-- what one observed split step does -/
theorem splitOp_observed (o : DirOps K S) (level : Nat) (dir : Int) (dt : K) (st : SplitState (S × List (DirEv K S))) :
    (∃ s, (splitOp o.observed level dir dt st).1.ctx.2 = st.ctx.2 ++ FluxEv.events ⟨dir, dt, s⟩ ∧
      (splitOp o.observed level dir dt st).2 = none ∧ ∀ r ≤ o.ranks, dt ≤ o.localDt s dir r) ∨
    (∃ s e, (splitOp o.observed level dir dt st).1.ctx.2 = st.ctx.2 ∧ (splitOp o.observed level dir dt st).2 = some e ∧
      e.level = level ∧ e.dt < dt ∧ (∀ r ≤ o.ranks, e.dt ≤ o.localDt s dir r) ∧ ∃ r ≤ o.ranks, e.dt = o.localDt s dir r) := by
  have hm : ∀ s : S × List (DirEv K S), minAll (o.observed.localDt s dir) o.observed.ranks =
      minAll (o.localDt s.1 dir) o.ranks := fun s => rfl
  have hlog : ∀ c : Prop, [Decidable c] → (if c then o.observed.applyBc dir st.ctx else st.ctx).2 = st.ctx.2 := by
    intro c _; split <;> rfl
  simp only [splitOp, hm]
  generalize hs0 : (if st.count dir > 0 then o.observed.applyBc dir st.ctx else st.ctx) = s0
  have h0 : s0.2 = st.ctx.2 := by rw [← hs0]; exact hlog _
  have h1 : (o.observed.preSplit dt dir st.shared s0).2 = st.ctx.2 := by rw [← h0]; rfl
  generalize o.observed.preSplit dt dir st.shared s0 = s1 at h1
  split
  · rename_i hlt
    refine Or.inr ⟨s1.1, _, h1, rfl, rfl, hlt, (minAll_spec _ _).1, (minAll_spec _ _).2⟩
  · rename_i hlt
    refine Or.inl ⟨s1.1, ?_, rfl, fun r hr => (not_lt.mp hlt).trans ((minAll_spec _ _).1 r hr)⟩
    show s1.2 ++ [.fluxes dir dt s1.1] ++ [.update dir dt] ++ [.complete dt] ++ [.accumulate dir dt] = _
    rw [h1]; simp [FluxEv.events]

theorem runSchedule_observed (o : DirOps K S) (level : Nat) (dirs : List Int) :
    ∀ (sched : List (Nat × K)), (∀ q ∈ sched, q.1 < dirs.length) → ∀ st : SplitState (S × List (DirEv K S)),
    ∃ (new : List (FluxEv K S)) (rest : List (Int × K)), (runSchedule (dirs.map (splitOp o.observed level)) sched st).1.ctx.2 = st.ctx.2 ++ new.flatMap FluxEv.events ∧
      (∀ x ∈ new, ∀ r ≤ o.ranks, x.dt ≤ o.localDt x.state x.dir r) ∧
      sched.map (fun q => (dirs.getD q.1 0, q.2)) = new.map (fun x => (x.dir, x.dt)) ++ rest ∧
      match (runSchedule (dirs.map (splitOp o.observed level)) sched st).2 with
      | none => rest = []
      | some e => ∃ s d x rest', rest = (d, x) :: rest' ∧ e.level = level ∧ e.dt < x ∧
          (∀ r ≤ o.ranks, e.dt ≤ o.localDt s d r) ∧ ∃ r ≤ o.ranks, e.dt = o.localDt s d r := by
  intro sched
  induction sched with
  | nil => intro _ st; exact ⟨[], [], by simp [runSchedule], by simp, rfl, rfl⟩
  | cons q sched ih =>
    intro hq st
    obtain ⟨i, dt⟩ := q
    have hi : i < dirs.length := hq (i, dt) (by simp)
    have hi' : (dirs.map (splitOp o.observed level))[i]? = some (splitOp o.observed level dirs[i]) := by
      rw [List.getElem?_map, List.getElem?_eq_getElem hi]; rfl
    have hd : dirs.getD i 0 = dirs[i] := by simp [hi]
    simp only [runSchedule, hi']
    rcases splitOp_observed o level dirs[i] dt st with ⟨s, h1, h2, h3⟩ | ⟨s, e, h1, h2, h3, h4, h5, h6⟩
    · obtain ⟨new, rest, g1, g2, g3, g4⟩ := ih (fun q hq' => hq q (by simp [hq'])) (splitOp o.observed level dirs[i] dt st).1
      rcases hop : splitOp o.observed level dirs[i] dt st with ⟨st', _ | e⟩
      · rw [hop] at g1 g4 h1
        simp only at g1 g4 h1 ⊢
        refine ⟨⟨dirs[i], dt, s⟩ :: new, rest, ?_, ?_, ?_, g4⟩
        · rw [g1, h1]; simp
        · intro x hx
          rcases List.mem_cons.mp hx with rfl | hx
          · exact h3
          · exact g2 x hx
        · simp only [List.map_cons, List.cons_append, g3, hd]
      · rw [hop] at h2; cases h2
    · rcases hop : splitOp o.observed level dirs[i] dt st with ⟨st', _ | e'⟩
      · rw [hop] at h2; cases h2
      · rw [hop] at h1 h2
        simp only [Option.some.injEq] at h1 h2
        subst h2
        refine ⟨[], _, ?_, by simp, rfl, ?_⟩
        · simp [h1]
        · exact ⟨s, _, _, _, rfl, h3, by exact h4, by rw [hd]; exact h5, by rw [hd]; exact h6⟩

/-- **C13.** For every context, splitting method and number of directions: the data are only changed by complete sweeps (fluxes, update,
completion, accumulation), each with a step size that does not exceed the stable step size of the state it starts from in its direction
on any MPI rank. A successful call advances each direction by exactly `dt` in total. A failing call reports this level and the smallest stable step
size over all ranks, which is smaller than the attempted split step; for the attempted and later split steps nothing was
changed. -/
theorem level_steps_stable (o : DirOps K S) (M : Split2 K (SplitState (S × List (DirEv K S))) (StepErr K))
    (hM : IsSplitting M) (rank level : Nat) (cycle sub : Int) (hc : 0 ≤ cycle) (hs : 0 ≤ sub) (dt : K) (s0 : S) :
    ∃ (sweeps : List (FluxEv K S)) (todo : List (Int × K)),
      (advanceNonRecursively o.observed M rank level cycle sub dt (s0, [])).1.2 = sweeps.flatMap FluxEv.events ∧
      (∀ x ∈ sweeps, ∀ r ≤ o.ranks, x.dt ≤ o.localDt x.state x.dir r) ∧
      (∀ d : Nat, d < rank → fluxTime d sweeps + ((todo.filter (fun q => q.1 == (d : Int))).map Prod.snd).sum = dt) ∧
      match (advanceNonRecursively o.observed M rank level cycle sub dt (s0, [])).2 with
      | none => todo = []
      | some e => ∃ s d x rest, todo = (d, x) :: rest ∧ e.level = level ∧ e.dt < x ∧
          (∀ r ≤ o.ranks, e.dt ≤ o.localDt s d r) ∧ ∃ r ≤ o.ranks, e.dt = o.localDt s d r := by
  obtain ⟨sched, h1, h2, h3⟩ := hM rank dt
  have hperm := splitDirections_perm rank cycle sub hc hs
  have hlen : (makeSplitDirections rank cycle sub).length = rank := by
    have := hperm.length_eq; simpa using this
  have hnodup : (makeSplitDirections rank cycle sub).Nodup := by
    rw [hperm.nodup_iff]
    exact (List.nodup_range).map (fun a b h => by simpa using h)
  generalize hdirs : makeSplitDirections rank cycle sub = dirs at *
  have hrun := h3 (dirs.map (splitOp o.observed level)) (by simp [hlen]) ⟨(s0, []), fun _ => 0, 0⟩
  obtain ⟨new, rest, g1, g2, g3, g4⟩ := runSchedule_observed o level dirs sched (by rw [hlen]; exact h1)
    ⟨(s0, []), fun _ => 0, 0⟩
  refine ⟨new, rest, ?_, g2, ?_, ?_⟩
  · simp only [advanceNonRecursively, hdirs, hrun, g1, List.nil_append]
  · intro d hd
    have hmem : (d : Int) ∈ dirs := by
      rw [hperm.mem_iff]; simp [hd]
    obtain ⟨i, hi, hid⟩ := List.getElem_of_mem hmem
    rw [← h2 i (by omega)]
    have e1 : fluxTime d new + ((rest.filter (fun q => q.1 == (d : Int))).map Prod.snd).sum =
        (((new.map (fun x => (x.dir, x.dt)) ++ rest).filter (fun q => q.1 == (d : Int))).map Prod.snd).sum := by
      rw [List.filter_append, List.map_append, List.sum_append]
      congr 1
      rw [List.filter_map, List.map_map]
      rfl
    rw [e1, ← g3, List.filter_map, List.map_map, totalTime]
    have e2 : sched.filter ((fun q => q.1 == (d : Int)) ∘ fun q => (dirs.getD q.1 0, q.2)) =
        sched.filter (fun p => p.1 == i) := by
      apply List.filter_congr
      intro q hq
      have hq' : q.1 < dirs.length := by rw [hlen]; exact h1 q hq
      simp only [Function.comp]
      rw [show dirs.getD q.1 0 = dirs[q.1] by simp [hq'], ← hid]
      by_cases hqi : q.1 = i
      · simp [hqi]
      · have : dirs[q.1] ≠ dirs[i] := fun h => hqi ((List.Nodup.getElem_inj_iff hnodup).mp h)
        rw [beq_eq_false_iff_ne.mpr this, beq_eq_false_iff_ne.mpr hqi]
    rw [e2]
    rfl
  · simp only [advanceNonRecursively, hdirs, hrun]
    exact g4

omit [LinearOrder K] in
/-- The three splitting methods of the library meet the hypothesis of `level_steps_stable`. -/
theorem isSplitting_all {E : Type} [NeZero (2 : K)] : IsSplitting (godunovSplit : Split2 K S E) ∧
    IsSplitting (strangSplit : Split2 K S E) ∧ IsSplitting (lumpedSplit : Split2 K S E) := by
  refine ⟨?_, ?_, ?_⟩ <;> intro N dt
  · obtain ⟨sched, h, h2, h3⟩ := godunov_schedule (K := K) N dt
    exact ⟨sched, by rw [h]; simp, h2, h3 S E⟩
  · obtain ⟨sched, h, h1, h2, h3⟩ := strang_schedule (K := K) N dt
    exact ⟨sched, h1, h2, h3 S E⟩
  · obtain ⟨sched, h, h1, h2, h3⟩ := lumped_schedule (K := K) N dt
    exact ⟨sched, h1, h2, h3 S E⟩

/-- **C13 (estimate).** If `dt` does not exceed the level's estimate then no direction rejects it in the state the estimate
was made for. -/
theorem levelStableDt_spec (o : DirOps K S) (rank : Nat) (big : K) (p : Nat) (s : S) :
    (∀ d < rank, levelStableDt o rank big p s ≤ o.localDt s (d : Int) p) ∧ levelStableDt o rank big p s ≤ big ∧
    (levelStableDt o rank big p s = big ∨ ∃ d < rank, levelStableDt o rank big p s = o.localDt s (d : Int) p) := by
  induction rank with
  | zero => exact ⟨fun d h => by omega, le_rfl, Or.inl rfl⟩
  | succ n ih =>
    obtain ⟨h1, h2, h3⟩ := ih
    have e : levelStableDt o (n + 1) big p s = min (levelStableDt o n big p s) (o.localDt s (n : Int) p) := by
      simp [levelStableDt, List.range_succ]
    rw [e]
    refine ⟨?_, (min_le_left _ _).trans h2, ?_⟩
    · intro d hd
      by_cases h : d = n
      · subst h; exact min_le_right _ _
      · exact (min_le_left _ _).trans (h1 d (by omega))
    · rcases min_choice (levelStableDt o n big p s) (o.localDt s (n : Int) p) with h | h
      · rw [h]
        rcases h3 with h3 | ⟨d, hd, h3⟩
        · exact Or.inl h3
        · exact Or.inr ⟨d, by omega, h3⟩
      · rw [h]; exact Or.inr ⟨n, by omega, rfl⟩

end

/-- Two directions, two ranks; the state counts updates; after the first update in direction 0 the stable step size of rank 1
in direction 1 shrinks. -/
def demoDir : DirOps ℚ Nat where
  ranks := 1
  applyBc := fun _ s => s
  preSplit := fun _ _ _ s => s
  localDt := fun s d r => if d = 1 ∧ r = 1 ∧ s = 1 then 1 / 4 else 1
  fluxes := fun _ _ s => s
  update := fun _ _ s => s + 1
  complete := fun _ s => s
  accumulate := fun _ _ s => s

/-- With Godunov splitting the second direction rejects 1/2 and reports 1/4 on level 3, one flux sweep has happened; the step
1/8 is accepted. -/
example : (advanceNonRecursively demoDir.observed godunovSplit 2 3 0 0 (1 / 2) (0, [])).2 = some ⟨1 / 4, 3⟩ ∧
    (advanceNonRecursively demoDir.observed godunovSplit 2 3 0 0 (1 / 2) (0, [])).1.2.length = 4 ∧
    (advanceNonRecursively demoDir.observed strangSplit 2 3 0 0 (1 / 8) (0, [])).2 = none := by
  decide +kernel

end Fub
