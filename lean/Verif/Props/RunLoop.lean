import Verif.Lemmas.RunLoopTerm
import Verif.Lemmas.Output
import Mathlib.Algebra.Order.Ring.Rat
import Mathlib.Data.Rat.Floor
import Mathlib.Tactic.NormNum

/-!
# Properties of the run loop (C01 - C06)
-/

namespace Fub
open RunLoop

/-! ## A concrete solver, used for the non-vacuity examples

It starts at time 0, reports a stable step size of 1/2, and its second step (cycle 1) fails when it is
larger than 1/8, reporting 1/6. -/

/-- state of the demo solver: time and cycles -/
structure Demo where
  t : ℚ
  n : Int
  deriving DecidableEq

/-- A lawful solver with a failing step. -/
def demoSolver : Solver ℚ Demo where
  gridTime s := s.t
  gridCycles s := s.n
  time s := some s.t
  cycles s := some s.n
  copy s := s
  preAdvance s := s
  stableDt _ := 1 / 2
  advance s dt := if s.n = 1 ∧ 1 / 7 < dt then (⟨s.t + dt, s.n + 1⟩, some (1 / 7)) else (s, none)
  postAdvance s dt := ⟨s.t + dt, s.n + 1⟩

theorem demoSolver_lawful : demoSolver.Lawful := by
  constructor
  · intro s; rfl
  · intro s; rfl
  · intro s dt s' h
    simp only [demoSolver] at h ⊢
    split at h
    · simp at h
    · simp at h; subst h; exact ⟨rfl, rfl⟩
  · intro s; rfl
  · intro s; rfl
  · intro s dt s' h
    simp only [demoSolver] at h ⊢
    split at h
    · simp at h
    · simp at h; subst h; exact ⟨rfl, rfl⟩

/-- default options with cfl 4/5 -/
def demoOptions : RunOptions ℚ := RunOptions.default ℚ

/-- output after every cycle and every 1/4 s -/
def demoOutput : FreqOrInterval ℚ := { frequencies := [3], intervals := [1 / 4], epsS := 1 / 10 ^ 12 }

section
variable {K S : Type} [Field K] [LinearOrder K]

/-! ## C01 -/

/-- **C01 (upper bound).** Whatever the solver reports and whenever steps fail, the simulated time never exceeds
`final_time`, and it is the time of the grid. -/
theorem run_time_le_final [IsStrictOrderedRing K] {σ : Solver K S} {o : RunOptions K} {w : Output K S} (hσ : σ.Lawful)
    {s : S} (h0 : σ.gridTime s ≤ o.finalTime) (n : Nat) :
    (run σ o w s n).t ≤ o.finalTime ∧
    ((run σ o w s n).pc.live → σ.gridTime (run σ o w s n).solver = (run σ o w s n).t) := by
  refine ⟨?_, (Inv.run (obs := fun _ => ()) hσ (fun _ => rfl) s n).live_grid⟩
  have h := run_induct (σ := σ) (o := o) (w := w) (s := s)
    (fun c => Inv σ o (fun _ => ()) c ∧ c.t ≤ o.finalTime)
    ⟨Inv.init hσ (fun _ => rfl) s, h0⟩ ?_ n
  · exact h.2
  · rintro c ⟨hinv, hc⟩
    refine ⟨Inv.step hσ (fun _ => rfl) hinv, ?_⟩
    unfold step
    split
    · split <;> exact hc
    · rename_i hpc
      have hl : c.pc.live := by rw [hpc]; trivial
      rcases body_cases σ o w c with ⟨s1, e, b, ha, _, _, hb⟩ | ⟨s1, e, ha, _, _, hb⟩ | ⟨s1, e, ha, _, hb⟩ |
        ⟨s1, t', k, ha, ht, _, hb⟩ | ⟨s1, ha, _, hb⟩ <;> rw [hb]
      · rw [(endBody_fields σ o w _).2.2.1]; exact hc
      · exact hc
      · exact hc
      · rw [(endBody_fields σ o w _).2.2.1]
        have hp := (hσ.post_time _ _ _ ha).2
        rw [ht, hσ.pre_time, hinv.live_grid hl] at hp
        have := limitedDt_le_final o c.t (w.nextOutputTime c.t) (estOf σ c)
        simp only [Option.some.injEq] at hp
        change t' ≤ _
        rw [hp]
        change c.t + limitedDt o c.t (w.nextOutputTime c.t) (estOf σ c) ≤ _
        linarith
      · exact hc
    · exact hc

/-- **C01 (monotonicity).** If all step size estimates are non-negative and outputs are not scheduled in the past,
the simulated time never decreases, for any pattern of failures and retries. -/
theorem run_time_monotone [IsStrictOrderedRing K] {σ : Solver K S} {o : RunOptions K} {w : Output K S}
    (hσ : σ.Lawful) (hest : σ.NonnegEstimates) (hw : w.NotPast) (hcfl : 0 ≤ o.cfl) (heps : 0 ≤ o.eps)
    {s : S} {m n : Nat} (hmn : m ≤ n) :
    (run σ o w s m).t ≤ (run σ o w s n).t := by
  induction hmn with
  | refl => exact le_refl _
  | @step n _ ih =>
    refine ih.trans ?_
    rw [run_succ]
    have hinv := Inv.run (o := o) (w := w) (obs := fun _ => ()) hσ (fun _ => rfl) s n
    have hne : ∀ e, (run σ o w s n).failureDt = some e → 0 ≤ e := by
      apply run_induct (σ := σ) (o := o) (w := w) (s := s) (fun c => ∀ e, c.failureDt = some e → 0 ≤ e)
      · intro e he; simp [init] at he
      · intro c hc
        unfold step
        split
        · split <;> exact hc
        · rcases body_cases σ o w c with ⟨s1, e, b, ha, _, _, hb⟩ | ⟨s1, e, ha, _, _, hb⟩ | ⟨s1, e, ha, _, hb⟩ |
            ⟨s1, t', k, ha, ht, _, hb⟩ | ⟨s1, ha, _, hb⟩ <;> rw [hb]
          · rw [(endBody_fields σ o w _).2.2.2.1]
            intro e' he'
            simp only [failCfg, Option.some.injEq] at he'
            subst he'
            exact hest.2 _ _ _ _ ha
          · exact hc
          · exact hc
          · rw [(endBody_fields σ o w _).2.2.2.1]; intro e' he'; simp [okCfg] at he'
          · exact hc
        · exact hc
    generalize run σ o w s n = c at *
    unfold step
    split
    · split <;> exact le_refl _
    · rename_i hpc
      have hl : c.pc.live := by rw [hpc]; trivial
      rcases body_cases σ o w c with ⟨s1, e, b, ha, _, _, hb⟩ | ⟨s1, e, ha, _, _, hb⟩ | ⟨s1, e, ha, _, hb⟩ |
        ⟨s1, t', k, ha, ht, _, hb⟩ | ⟨s1, ha, _, hb⟩ <;> rw [hb]
      · rw [(endBody_fields σ o w _).2.2.1]; exact le_refl _
      · rw [(endBody_fields σ o w _).2.2.1]
        have hp := (hσ.post_time _ _ _ ha).2
        rw [ht, hσ.pre_time, hinv.live_grid hl] at hp
        simp only [Option.some.injEq] at hp
        change c.t ≤ t'
        rw [hp]
        have h0 : 0 ≤ dtOf σ o w c := by
          apply le_limitedDt
          · have := hinv.inner hpc; linarith
          · apply mul_nonneg hcfl
            unfold estOf; cases hfd : c.failureDt with
            | none => exact hest.1 _
            | some e => exact hne e hfd
          · intro u hu; have := hw _ _ hu; linarith
        linarith
    · exact le_refl _

/-! ## C03 -/

/-- **C03.** Every attempted step of every run: the step size is at most `cfl` times the estimate, the estimate is the
one of the immediately preceding attempt if that failed and otherwise the solver's stable step size, and the
step ends neither after the final time nor after the next scheduled output; it is the largest step with these properties. -/
theorem run_attempts [IsStrictOrderedRing K] {σ : Solver K S} {o : RunOptions K} {w : Output K S} (hσ : σ.Lawful)
    {s0 : S} {n : Nat} {newer older : List (Event K S)} {s : S} {t est dt : K} {e : Option K}
    (h : (run σ o w s0 n).trace = newer ++ Event.attempt s t est dt e :: older) :
    dt ≤ o.cfl * est ∧ t + dt ≤ o.finalTime ∧ (∀ u, w.nextOutputTime t = some u → t + dt ≤ u) ∧
    (∀ x, x ≤ o.cfl * est → t + x ≤ o.finalTime → (∀ u, w.nextOutputTime t = some u → t + x ≤ u) → x ≤ dt) ∧
    est = (match pendingError older with | some e' => e' | none => σ.stableDt (σ.preAdvance s)) ∧
    (∃ s', σ.advance (σ.preAdvance s) dt = (s', e)) := by
  let Q : Event K S → List (Event K S) → Prop := fun ev older => match ev with
    | .attempt s t est dt e => dt ≤ o.cfl * est ∧ t + dt ≤ o.finalTime ∧
        (∀ u, w.nextOutputTime t = some u → t + dt ≤ u) ∧
        (∀ x, x ≤ o.cfl * est → t + x ≤ o.finalTime → (∀ u, w.nextOutputTime t = some u → t + x ≤ u) → x ≤ dt) ∧
        est = (match pendingError older with | some e' => e' | none => σ.stableDt (σ.preAdvance s)) ∧
        (∃ s', σ.advance (σ.preAdvance s) dt = (s', e))
    | .output _ _ => True
  have key := run_induct (σ := σ) (o := o) (w := w) (s := s0)
    (fun c => Inv σ o (fun _ => ()) c ∧ AllSuffix Q c.trace)
    ⟨Inv.init hσ (fun _ => rfl) s0, AllSuffix.nil Q⟩ ?_ n
  · exact key.2 newer _ older h
  · rintro c ⟨hinv, hc⟩
    refine ⟨Inv.step hσ (fun _ => rfl) hinv, step_allSuffix ?_ (fun _ _ _ => trivial) hc⟩
    intro hpc e' he'
    have hl : c.pc.live := by rw [hpc]; trivial
    refine ⟨limitedDt_le_est _ _ _ _, ?_, ?_, ?_, ?_, ⟨_, Prod.ext rfl he'⟩⟩
    · have := limitedDt_le_final o c.t (w.nextOutputTime c.t) (estOf σ c)
      change c.t + limitedDt o c.t (w.nextOutputTime c.t) (estOf σ c) ≤ _
      linarith
    · intro u hu
      have := limitedDt_le_next o c.t u (estOf σ c)
      change c.t + limitedDt o c.t (w.nextOutputTime c.t) (estOf σ c) ≤ _
      rw [hu]; linarith
    · intro x h1 h2 h3
      change x ≤ limitedDt o c.t (w.nextOutputTime c.t) (estOf σ c)
      unfold limitedDt
      rcases hn : w.nextOutputTime c.t with _ | u
      · exact le_min (by linarith) h1
      · have := h3 u hn
        exact le_min (le_min (by linarith) h1) (by linarith)
    · rw [← hinv.fail hl]; unfold estOf; cases c.failureDt <;> rfl

/-! ## C04 -/

/-- **C04 (run loop).** With backups enabled: whenever an attempt follows a failed attempt, it starts at the same time
and from a state that agrees with the start of the failed attempt in every observable that copying a solver preserves.
(`obs = id` when copies are faithful; see `context_copy_*` for what the AMReX context copy does not preserve.) -/
theorem run_rollback [IsStrictOrderedRing K] {Ω : Type} {σ : Solver K S} {o : RunOptions K} {w : Output K S}
    (hσ : σ.Lawful) (obs : S → Ω) (hobs : ∀ s, obs (σ.copy s) = obs s)
    {s0 : S} {n : Nat} {newer older : List (Event K S)} {s s1 : S} {t t1 est dt e1 : K} {e : Option K}
    (h : (run σ o w s0 n).trace = newer ++ Event.attempt s t est dt e :: older)
    (hprev : lastAttempt older = some (s1, t1, some e1)) :
    obs s = obs s1 ∧ t = t1 := by
  let Q : Event K S → List (Event K S) → Prop := fun ev older => match ev with
    | .attempt s t _ _ _ => ∀ s1 t1 e1, lastAttempt older = some (s1, t1, some e1) → obs s = obs s1 ∧ t = t1
    | .output _ _ => True
  have key := run_induct (σ := σ) (o := o) (w := w) (s := s0)
    (fun c => Inv σ o obs c ∧ AllSuffix Q c.trace)
    ⟨Inv.init hσ hobs s0, AllSuffix.nil Q⟩ ?_ n
  · exact key.2 newer _ older h _ _ _ hprev
  · rintro c ⟨hinv, hc⟩
    refine ⟨Inv.step hσ hobs hinv, step_allSuffix ?_ (fun _ _ _ => trivial) hc⟩
    intro hpc e' he'
    have hl : c.pc.live := by rw [hpc]; trivial
    exact fun s1 t1 e1 h1 => hinv.last hl s1 t1 e1 h1

/-! ## C02 -/

/-- **C02 (exit reasons).** A normal exit means the final time is reached (up to `eps`) or the cycle limit is active
and reached; an abort means backups are disabled and the last attempt failed. -/
theorem run_exit_reason {σ : Solver K S} {o : RunOptions K} {w : Output K S} {s : S} (n : Nat) :
    ((run σ o w s n).pc = .done →
      o.finalTime ≤ (run σ o w s n).t + o.eps ∨
        (0 ≤ o.maxCycles ∧ o.maxCycles ≤ σ.gridCycles (run σ o w s n).solver)) ∧
    ((run σ o w s n).pc = .aborted → o.doBackup = false ∧ ∃ e, pendingError (run σ o w s n).trace = some e) := by
  apply run_induct (σ := σ) (o := o) (w := w) (s := s) (fun c =>
    (c.pc = .done → o.finalTime ≤ c.t + o.eps ∨ (0 ≤ o.maxCycles ∧ o.maxCycles ≤ σ.gridCycles c.solver)) ∧
    (c.pc = .aborted → o.doBackup = false ∧ ∃ e, pendingError c.trace = some e))
  · simp [init]
  · rintro c ⟨h1, h2⟩
    have hend : ∀ c' : Config K S, (endBody σ o w c').pc ≠ .done ∧ (endBody σ o w c').pc ≠ .aborted := by
      intro c'
      rcases endBody_cases σ o w c' with h | h | ⟨h, _⟩ <;> rw [h] <;> simp
    unfold step
    split
    · split
      · simp
      · rename_i hc
        refine ⟨fun _ => ?_, by simp⟩
        by_contra hcon
        push Not at hcon
        apply hc
        refine ⟨hcon.1, ?_⟩
        by_cases hm : o.maxCycles < 0
        · exact Or.inl hm
        · exact Or.inr (hcon.2 (not_lt.1 hm))
    · rcases body_cases σ o w c with ⟨s1, e, b, ha, _, _, hb⟩ | ⟨s1, e, ha, _, _, hb⟩ | ⟨s1, e, ha, hd, hb⟩ |
        ⟨s1, t', k, ha, ht, _, hb⟩ | ⟨s1, ha, _, hb⟩ <;> rw [hb]
      · exact ⟨fun h => absurd h (hend _).1, fun h => absurd h (hend _).2⟩
      · simp
      · exact ⟨by simp, fun _ => ⟨hd, e, rfl⟩⟩
      · exact ⟨fun h => absurd h (hend _).1, fun h => absurd h (hend _).2⟩
      · simp
    · exact ⟨h1, h2⟩

/-- **C02 (termination).** Assume `0 < cfl < 1`, a positive lower bound `τ` of all stable step sizes and error
estimates, steps of size at most `cfl * τ` succeed, an error never reports more than the attempted step size, and outputs
are scheduled at least `η > 0` ahead.  Then the loop stops. -/
theorem run_terminates [IsStrictOrderedRing K] [Archimedean K] {σ : Solver K S} {o : RunOptions K} {w : Output K S}
    (hσ : σ.Lawful) {τ η : K} (hcfl : 0 < o.cfl) (hcfl1 : o.cfl < 1) (heps : 0 < o.eps) (hτ : 0 < τ) (hη : 0 < η)
    (hst : ∀ s, τ ≤ σ.stableDt s)
    (hadv : ∀ s dt s' e, σ.advance s dt = (s', some e) → o.cfl * τ < dt ∧ τ ≤ e ∧ e ≤ dt)
    (hnext : ∀ t u, w.nextOutputTime t = some u → t + η ≤ u) (s : S) :
    ∃ n, (run σ o w s n).pc.isFinal := by
  let μ := min o.eps (min η (o.cfl * τ))
  have hμ : 0 < μ := lt_min heps (lt_min hη (mul_pos hcfl hτ))
  obtain ⟨A, hA⟩ := Archimedean.arch (o.finalTime - (init σ o s).t) hμ
  have hA' : o.finalTime - (init σ o s).t ≤ A * μ := by simpa [nsmul_eq_mul] using hA
  obtain ⟨B, hB⟩ : ∃ B : Nat, o.cfl ^ B * estOf σ (init σ o s) ≤ τ := by
    have he : 0 < estOf σ (init σ o s) := lt_of_lt_of_le hτ (hst _)
    obtain ⟨n, hn⟩ := exists_pow_lt_of_lt_one (div_pos hτ he) hcfl1
    exact ⟨n, by rw [lt_div_iff₀ he] at hn; exact hn.le⟩
  exact terminates_aux hσ hcfl hcfl1 hτ hμ (min_le_left _ _) ((min_le_right _ _).trans (min_le_left _ _))
    ((min_le_right _ _).trans (min_le_right _ _)) hst hadv hnext A B _ (Inv.init hσ (fun _ => rfl) s)
    (by intro e he; simp [init] at he) (Or.inl rfl) hA' hB

/-- With backups and without undefined behaviour in the solver and the output, the loop never ends in an undefined or aborted state. -/
theorem run_no_ub {σ : Solver K S} {o : RunOptions K} {w : Output K S}
    (hσ : σ.Lawful) (hb : o.doBackup = true) (hcyc : ∀ s, σ.cycles s ≠ none) (hw : ∀ s, w.shallOutputNow s ≠ none)
    (s : S) (n : Nat) : (run σ o w s n).pc.live := by
  have h := run_induct (σ := σ) (o := o) (w := w) (s := s)
    (fun c => Inv σ o (fun _ => ()) c ∧ c.pc.live) ⟨Inv.init hσ (fun _ => rfl) s, trivial⟩ ?_ n
  · exact h.2
  · rintro c ⟨hinv, hc⟩
    refine ⟨Inv.step hσ (fun _ => rfl) hinv, ?_⟩
    have hend : ∀ c' : Config K S, (endBody σ o w c').pc.live := by
      intro c'
      unfold endBody
      dsimp only
      split
      · split
        · rename_i h; exfalso
          unfold cyclesOk at h
          split at h
          · simp at h
          · exact hcyc _ (by simpa using h)
        · trivial
        · split
          · rename_i h; exact absurd h (hw _)
          · trivial
          · trivial
      · trivial
    unfold step
    split
    · split <;> trivial
    · rcases body_cases σ o w c with ⟨s1, e, b, ha, _, _, hb'⟩ | ⟨s1, e, ha, hd, hbk, hb'⟩ | ⟨s1, e, ha, hd, hb'⟩ |
        ⟨s1, t', k, ha, ht, _, hb'⟩ | ⟨s1, ha, h, hb'⟩ <;> rw [hb']
      · exact hend _
      · obtain ⟨b, hb1, _⟩ := hinv.backup hd
        rw [hbk] at hb1; cases hb1
      · rw [hd] at hb; cases hb
      · exact hend _
      · rcases h with h | h
        · rw [(hσ.post_time _ _ _ ha).2] at h; simp at h
        · rw [(hσ.post_cycles _ _ _ ha).2] at h; simp at h
    · exact hc

/-! ## C05 -/

/-- **C05.** For every interval `I > epsS` of the schedule and every multiple `k I` of it that the simulation has passed
since its start, the output was invoked at a time in `[k I, k I + epsS]`. -/
theorem run_no_output_skipped [IsStrictOrderedRing K] [FloorRing K] {σ : Solver K S} {o : RunOptions K}
    (hσ : σ.Lawful) (hest : σ.NonnegEstimates) (f : FreqOrInterval K) (hfr : ∀ q ∈ f.frequencies, q ≠ 0)
    (heps : 0 < f.epsS) (hcfl : 0 ≤ o.cfl) (heps' : 0 ≤ o.eps)
    {I : K} (hI : I ∈ f.intervals) (hIe : f.epsS < I) {s0 : S} (h0 : 0 ≤ σ.gridTime s0)
    (n : Nat) (hlive : (run σ o (f.toOutput σ) s0 n).pc.live) (k : Int)
    (hk0 : σ.gridTime s0 < k * I) (hk : k * I ≤ (run σ o (f.toOutput σ) s0 n).t) :
    ∃ s t, Event.output s t ∈ (run σ o (f.toOutput σ) s0 n).trace ∧ σ.gridTime s = t ∧
      k * I ≤ t ∧ t ≤ k * I + f.epsS := by
  have hnp : (f.toOutput σ).NotPast := fun t u hu => by
    have := f.next_ge hu; linarith
  have hmono := fun {m n : Nat} (h : m ≤ n) =>
    run_time_monotone (w := f.toOutput σ) hσ hest hnp hcfl heps' (s := s0) h
  have hIp : 0 < I := lt_trans heps hIe
  induction n with
  | zero =>
    exfalso
    have : (run σ o (f.toOutput σ) s0 0).t = σ.gridTime s0 := rfl
    rw [this] at hk
    exact absurd hk (not_le.2 hk0)
  | succ n ih =>
    have hinv := Inv.run (o := o) (w := f.toOutput σ) (obs := fun _ => ()) hσ (fun _ => rfl) s0 n
    have ht0 : 0 ≤ (run σ o (f.toOutput σ) s0 n).t := h0.trans (hmono (Nat.zero_le n))
    have hmn := hmono (Nat.le_succ n)
    rw [run_succ] at hlive hk hmn ⊢
    generalize hc : run σ o (f.toOutput σ) s0 n = c at *
    -- liveness of the predecessor
    have hl : c.pc.live := by
      by_contra hcon
      unfold step at hlive
      rcases hp : c.pc with _ | _ | _ | _ | _ <;> rw [hp] at hlive hcon <;>
        first | exact hcon trivial | (exact absurd hlive (by simp [hp, Pc.live]))
    -- traces only grow
    have hsub : ∀ ev, ev ∈ c.trace → ev ∈ (step σ o (f.toOutput σ) c).trace := by
      intro ev hev
      unfold step
      split
      · split <;> exact hev
      · rcases body_cases σ o (f.toOutput σ) c with ⟨s1, e, b, ha, _, _, hb⟩ | ⟨s1, e, ha, _, _, hb⟩ |
          ⟨s1, e, ha, _, hb⟩ | ⟨s1, t', k, ha, ht, _, hb⟩ | ⟨s1, ha, _, hb⟩ <;> rw [hb]
        · rcases (endBody_fields σ o (f.toOutput σ) (failCfg σ o (f.toOutput σ) c b e)).2.2.2.2 with h | h <;>
            rw [h] <;> simp [failCfg, hev]
        · simp [hev]
        · simp [hev]
        · rcases (endBody_fields σ o (f.toOutput σ)
            (okCfg σ o (f.toOutput σ) c (σ.postAdvance s1 (dtOf σ o (f.toOutput σ) c)) t')).2.2.2.2 with h | h <;>
            rw [h] <;> simp [okCfg, hev]
        · simp [hev]
      · exact hev
    by_cases hkc : k * I ≤ c.t
    · obtain ⟨s, t, h1, h2⟩ := ih hl hkc
      exact ⟨s, t, hsub _ h1, h2⟩
    · -- the multiple is crossed in this step
      push Not at hkc
      unfold step at hk hlive ⊢
      split at hk
      · exfalso; split at hk <;> exact absurd hk (not_le.2 hkc)
      · rename_i hpc
        simp only [hpc] at hlive ⊢
        rcases body_cases σ o (f.toOutput σ) c with ⟨s1, e, b, ha, _, _, hb⟩ | ⟨s1, e, ha, _, _, hb⟩ |
          ⟨s1, e, ha, _, hb⟩ | ⟨s1, t', k', ha, ht, hk', hb⟩ | ⟨s1, ha, _, hb⟩ <;> rw [hb] at hk hlive ⊢
        · exfalso
          rw [(endBody_fields σ o (f.toOutput σ) _).2.2.1] at hk
          exact absurd hk (not_le.2 hkc)
        · exact hlive.elim
        · exact hlive.elim
        · rw [(endBody_fields σ o (f.toOutput σ) _).2.2.1] at hk
          have hk : (k : K) * I ≤ t' := hk
          have hp := hσ.post_time _ _ _ ha
          have hpt := hp.2
          rw [ht, hσ.pre_time, hinv.live_grid hl] at hpt
          simp only [Option.some.injEq] at hpt
          obtain ⟨u, hu, hule⟩ := f.next_le hI hIp ht0
          have hdt : dtOf σ o (f.toOutput σ) c ≤ u - c.t := by
            have := limitedDt_le_next o c.t u (estOf σ c)
            unfold dtOf
            change limitedDt o c.t (f.nextOutputTime c.t) _ ≤ _
            rw [hu]; exact this
          have hfl1 : ((⌊c.t / I⌋ : Int) : K) * I ≤ c.t := by
            have := Int.floor_le (c.t / I); rwa [le_div_iff₀ hIp] at this
          -- k is the next multiple
          have hkfl : (⌊c.t / I⌋ : Int) + 1 ≤ k := by
            have h1 : ((⌊c.t / I⌋ : Int) : K) * I < k * I := lt_of_le_of_lt hfl1 hkc
            have h2 : ((⌊c.t / I⌋ : Int) : K) < k := lt_of_mul_lt_mul_right h1 hIp.le
            have h3 : ⌊c.t / I⌋ < k := by exact_mod_cast h2
            omega
          have hkI : ((⌊c.t / I⌋ : Int) + 1 : K) * I ≤ k * I := by
            have : ((⌊c.t / I⌋ + 1 : Int) : K) ≤ k := by exact_mod_cast hkfl
            push_cast at this
            exact mul_le_mul_of_nonneg_right this hIp.le
          have htle : t' ≤ k * I + f.epsS := by linarith
          have ht'0 : 0 ≤ t' := by
            have : (0 : K) ≤ k * I := ht0.trans hkc.le
            linarith
          -- the floor of t'/I is k
          have hfloor : ⌊t' / I⌋ = k := by
            rw [Int.floor_eq_iff]
            constructor
            · rw [le_div_iff₀ hIp]; exact hk
            · rw [div_lt_iff₀ hIp]; linarith
          have hgt : σ.gridTime (σ.postAdvance s1 (dtOf σ o (f.toOutput σ) c)) = t' := by
            rw [hp.1, hσ.pre_time, hinv.live_grid hl, hpt]
          have hshall : (f.toOutput σ).shallOutputNow (σ.postAdvance s1 (dtOf σ o (f.toOutput σ) c)) = some true := by
            change f.shallOutputNow _ (σ.gridTime _) = _
            rw [hgt]
            apply f.shall_of_near hI hIp ht'0 hfr
            rw [hfloor]; linarith
          rcases endBody_emit σ o (f.toOutput σ)
            (okCfg σ o (f.toOutput σ) c (σ.postAdvance s1 (dtOf σ o (f.toOutput σ) c)) t') hshall with h | h
          · rw [h] at hlive; exact hlive.elim
          · rw [h]
            exact ⟨_, t', List.mem_cons_self, hgt, hk, htle⟩
        · exact hlive.elim
      · exfalso; exact absurd hk (not_le.2 hkc)

end

/-! ## C06 -/

/-- A schedule that wants an output after every cycle. -/
def everyCycle : FreqOrInterval ℚ := { frequencies := [1], intervals := [], epsS := 1 / 10 ^ 12 }

/-- **C06 is false of the code.** The demo solver is lawful, but after its failing second step the output is invoked a
second time for the same state at the same time. -/
theorem output_duplicated_after_failure :
    demoSolver.Lawful ∧
    ¬ (outputsOf (run demoSolver demoOptions (everyCycle.toOutput demoSolver) ⟨0, 0⟩ 4).trace).Nodup :=
  ⟨demoSolver_lawful, by decide +kernel⟩

section
variable {K S : Type} [Field K] [LinearOrder K] [IsStrictOrderedRing K]

/-- **C06, the part that holds.** Every output directly follows an attempt; if that attempt succeeded, the time of the
output is strictly later than that of every earlier output.  Missing for the full property: outputs that directly
follow a failed attempt repeat the state of an earlier one (`output_duplicated_after_failure`). -/
theorem output_fresh_partial {σ : Solver K S} {o : RunOptions K} {w : Output K S} (hσ : σ.Lawful)
    (hest : σ.PosEstimates) (hw : w.Future) (hcfl : 0 < o.cfl) (heps : 0 ≤ o.eps)
    {s0 : S} {n : Nat} {newer older : List (Event K S)} {s : S} {t : K}
    (h : (run σ o w s0 n).trace = newer ++ Event.output s t :: older) :
    ∃ s1 t1 est dt e rest, older = Event.attempt s1 t1 est dt e :: rest ∧
      (e = none → ∀ p ∈ outputsOf older, p.2 < t) := by
  let Q : Event K S → List (Event K S) → Prop := fun ev older => match ev with
    | .attempt _ _ _ _ _ => True
    | .output _ t => ∃ s1 t1 est dt e rest, older = Event.attempt s1 t1 est dt e :: rest ∧
      (e = none → ∀ p ∈ outputsOf older, p.2 < t)
  have key := run_induct (σ := σ) (o := o) (w := w) (s := s0)
    (fun c => Inv σ o (fun _ => ()) c ∧ (∀ e, c.failureDt = some e → 0 < e) ∧
      (∀ p ∈ outputsOf c.trace, p.2 ≤ c.t) ∧ AllSuffix Q c.trace)
    ⟨Inv.init hσ (fun _ => rfl) s0, by intro e he; simp [init] at he, by simp [init, outputsOf], AllSuffix.nil Q⟩ ?_ n
  · exact key.2.2.2 newer _ older h
  · rintro c ⟨hinv, hf, hle, hQ⟩
    refine ⟨Inv.step hσ (fun _ => rfl) hinv, ?_⟩
    -- the end of the body
    have hend : ∀ c' : Config K S, (∀ e, c'.failureDt = some e → 0 < e) → (∀ p ∈ outputsOf c'.trace, p.2 ≤ c'.t) →
        AllSuffix Q c'.trace → Q (.output c'.solver c'.t) c'.trace →
        (∀ e, (endBody σ o w c').failureDt = some e → 0 < e) ∧
        (∀ p ∈ outputsOf (endBody σ o w c').trace, p.2 ≤ (endBody σ o w c').t) ∧
        AllSuffix Q (endBody σ o w c').trace := by
      intro c' h1 h2 h3 h4
      rcases endBody_cases σ o w c' with h | h | ⟨h, _⟩ <;> rw [h]
      · exact ⟨h1, h2, h3⟩
      · refine ⟨h1, ?_, AllSuffix.cons h4 h3⟩
        intro p hp
        simp only [outputsOf, List.mem_cons] at hp
        rcases hp with rfl | hp
        · exact le_refl _
        · exact h2 p hp
      · exact ⟨h1, h2, h3⟩
    unfold step
    split
    · split <;> exact ⟨hf, hle, hQ⟩
    · rename_i hpc
      have hl : c.pc.live := by rw [hpc]; trivial
      rcases body_cases σ o w c with ⟨s1, e, b, ha, _, _, hb⟩ | ⟨s1, e, ha, _, _, hb⟩ |
          ⟨s1, e, ha, _, hb⟩ | ⟨s1, t', k', ha, ht, hk', hb⟩ | ⟨s1, ha, _, hb⟩ <;> rw [hb]
      · apply hend
        · intro e' he'; simp only [failCfg, Option.some.injEq] at he'; subst he'; exact hest.2 _ _ _ _ ha
        · exact hle
        · exact AllSuffix.cons trivial hQ
        · exact ⟨_, _, _, _, _, _, rfl, by simp⟩
      · exact ⟨hf, hle, AllSuffix.cons trivial hQ⟩
      · exact ⟨hf, hle, AllSuffix.cons trivial hQ⟩
      · have hpt := (hσ.post_time _ _ _ ha).2
        rw [ht, hσ.pre_time, hinv.live_grid hl] at hpt
        simp only [Option.some.injEq] at hpt
        have h0 : 0 < dtOf σ o w c := by
          have h1 : 0 < o.cfl * estOf σ c := by
            apply mul_pos hcfl
            unfold estOf; cases hfd : c.failureDt with
            | none => exact hest.1 _
            | some e => exact hf e hfd
          have h2 := hinv.inner hpc
          unfold dtOf limitedDt
          cases hnx : w.nextOutputTime c.t with
          | none => exact lt_min (by linarith) h1
          | some u => exact lt_min (lt_min (by linarith) h1) (by have := hw _ _ hnx; linarith)
        have hlt : ∀ p ∈ outputsOf c.trace, p.2 < t' := fun p hp => by
          have := hle p hp; rw [hpt]; linarith
        apply hend
        · intro e' he'; simp [okCfg] at he'
        · intro p hp; exact (hlt p hp).le
        · exact AllSuffix.cons trivial hQ
        · exact ⟨_, _, _, _, _, _, rfl, fun _ p hp => hlt p hp⟩
      · exact ⟨hf, hle, AllSuffix.cons trivial hQ⟩
    · exact ⟨hf, hle, hQ⟩
end

/-! ## Non-vacuity: the hypotheses of all theorems above hold for the demo solver, which fails, retries and finishes -/

example : demoSolver.Lawful ∧ demoSolver.NonnegEstimates ∧ demoSolver.PosEstimates ∧
    (demoOutput.toOutput demoSolver).NotPast ∧ (demoOutput.toOutput demoSolver).Future ∧
    (0 : ℚ) < demoOptions.cfl ∧ demoOptions.cfl < 1 ∧ 0 < demoOptions.eps ∧
    (∀ s, (1 / 7 : ℚ) ≤ demoSolver.stableDt s) ∧
    (∀ s dt s' e, demoSolver.advance s dt = (s', some e) → demoOptions.cfl * (1 / 7) < dt ∧ 1 / 7 ≤ e ∧ e ≤ dt) ∧
    (∀ t u, (demoOutput.toOutput demoSolver).nextOutputTime t = some u → t + demoOutput.epsS ≤ u) := by
  have hnx : ∀ t u, (demoOutput.toOutput demoSolver).nextOutputTime t = some u → t + demoOutput.epsS < u :=
    fun t u h => demoOutput.next_ge h
  have heps : 0 < demoOutput.epsS := by norm_num [demoOutput]
  have hadv : ∀ s dt s' e, demoSolver.advance s dt = (s', some e) → 1 / 7 < dt ∧ e = 1 / 7 := by
    intro s dt s' e h
    simp only [demoSolver] at h
    split at h
    · rename_i h2; simp at h; exact ⟨h2.2, by rw [← h.2]; norm_num⟩
    · simp at h
  refine ⟨demoSolver_lawful, ⟨?_, ?_⟩, ⟨?_, ?_⟩, ?_, ?_, ?_, ?_, ?_, ?_, ?_, ?_⟩
  · intro s; norm_num [demoSolver]
  · intro s dt s' e h; rw [(hadv _ _ _ _ h).2]; norm_num
  · intro s; norm_num [demoSolver]
  · intro s dt s' e h; rw [(hadv _ _ _ _ h).2]; norm_num
  · intro t u h; have := hnx t u h; linarith
  · intro t u h; have := hnx t u h; linarith
  · norm_num [demoOptions, RunOptions.default]
  · norm_num [demoOptions, RunOptions.default]
  · norm_num [demoOptions, RunOptions.default]
  · intro s; norm_num [demoSolver]
  · intro s dt s' e h
    obtain ⟨h1, h2⟩ := hadv _ _ _ _ h
    subst h2
    refine ⟨?_, le_refl _, h1.le⟩
    norm_num [demoOptions, RunOptions.default] at h1 ⊢
    linarith
  · intro t u h; exact (hnx t u h).le

/-- The demo run finishes normally at the final time, having retried a failed step and written outputs. -/
example : (run demoSolver demoOptions (demoOutput.toOutput demoSolver) ⟨0, 0⟩ 14).pc = .done ∧
    (run demoSolver demoOptions (demoOutput.toOutput demoSolver) ⟨0, 0⟩ 14).t = 1 ∧
    (outputsOf (run demoSolver demoOptions (demoOutput.toOutput demoSolver) ⟨0, 0⟩ 14).trace).length = 5 ∧
    (run demoSolver demoOptions (demoOutput.toOutput demoSolver) ⟨0, 0⟩ 14).trace.any
      (fun ev => match ev with | .attempt _ _ _ _ (some _) => true | _ => false) := by
  decide +kernel

end Fub
