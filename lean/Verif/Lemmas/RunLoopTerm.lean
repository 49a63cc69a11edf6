import Verif.Lemmas.RunLoop
import Mathlib.Algebra.Order.Archimedean.Basic

/-! Helper lemmas: termination of the run loop. -/

namespace Fub
open RunLoop
variable {K S : Type} [Field K] [LinearOrder K]

theorem RunLoop.final_of_step {σ : Solver K S} {o : RunOptions K} {w : Output K S} {c : Config K S}
    (h : ∃ n, ((step σ o w)^[n] (step σ o w c)).pc.isFinal) : ∃ n, ((step σ o w)^[n] c).pc.isFinal := by
  obtain ⟨n, hn⟩ := h
  exact ⟨n + 1, by simpa [Function.iterate_succ_apply] using hn⟩

theorem RunLoop.final_here {σ : Solver K S} {o : RunOptions K} {w : Output K S} {c : Config K S}
    (h : c.pc.isFinal) : ∃ n, ((step σ o w)^[n] c).pc.isFinal := ⟨0, h⟩

theorem RunLoop.endBody_final_or_live (σ : Solver K S) (o : RunOptions K) (w : Output K S) (c : Config K S) :
    (endBody σ o w c).pc.isFinal ∨ (endBody σ o w c).pc = .outer ∨ (endBody σ o w c).pc = .inner := by
  rcases endBody_cases σ o w c with h | h | ⟨h, _⟩ <;> rw [h] <;> simp [Pc.isFinal]

variable [IsStrictOrderedRing K] [Archimedean K]

/-- Termination from an arbitrary configuration, by induction on the remaining time (in units of the minimal
progress `μ`) and the number of failures the current estimate can still suffer. -/
theorem RunLoop.terminates_aux {σ : Solver K S} {o : RunOptions K} {w : Output K S}
    (hσ : σ.Lawful) {τ η μ : K} (hcfl : 0 < o.cfl) (hcfl1 : o.cfl < 1) (hτ : 0 < τ)
    (hμ : 0 < μ) (hμ1 : μ ≤ o.eps) (hμ2 : μ ≤ η) (hμ3 : μ ≤ o.cfl * τ)
    (hst : ∀ s, τ ≤ σ.stableDt s)
    (hadv : ∀ s dt s' e, σ.advance s dt = (s', some e) → o.cfl * τ < dt ∧ τ ≤ e ∧ e ≤ dt)
    (hnext : ∀ t u, w.nextOutputTime t = some u → t + η ≤ u) :
    ∀ (A B : Nat) (c : Config K S), Inv σ o (fun _ => ()) c → (∀ e, c.failureDt = some e → τ ≤ e) →
      c.pc = .outer ∨ c.pc = .inner → o.finalTime - c.t ≤ A * μ → o.cfl ^ B * estOf σ c ≤ τ →
      ∃ n, ((step σ o w)^[n] c).pc.isFinal := by
  intro A
  induction A with
  | zero =>
    intro B c hinv _ hpc hA _
    have hA : o.finalTime ≤ c.t := by simpa using hA
    have hnot : ¬ (c.t + o.eps < o.finalTime) := by
      have : 0 < o.eps := lt_of_lt_of_le hμ hμ1
      intro h; linarith
    rcases hpc with hpc | hpc
    · apply final_of_step
      apply final_here
      unfold step
      rw [hpc]
      simp [hnot, Pc.isFinal]
    · exact absurd (hinv.inner hpc) hnot
  | succ A ihA =>
    intro B
    induction B with
    | zero =>
      intro c hinv hf hpc hA hB
      -- no failure is possible any more
      have main : ∀ c : Config K S, Inv σ o (fun _ => ()) c → (∀ e, c.failureDt = some e → τ ≤ e) →
          c.pc = .inner → o.finalTime - c.t ≤ (A + 1 : Nat) * μ → estOf σ c ≤ τ →
          ∃ n, ((step σ o w)^[n] c).pc.isFinal := by
        intro c hinv hf hpc hA hB
        have hstep : step σ o w c = body σ o w c := by unfold step; rw [hpc]
        have hdt : dtOf σ o w c ≤ o.cfl * τ := by
          refine (limitedDt_le_est _ _ _ _).trans ?_
          exact mul_le_mul_of_nonneg_left hB hcfl.le
        have hτe : τ ≤ estOf σ c := by
          unfold estOf; cases hfd : c.failureDt with
          | none => exact hst _
          | some e => exact hf e hfd
        have hdt2 : μ ≤ dtOf σ o w c := by
          apply le_limitedDt
          · have := hinv.inner hpc; linarith
          · exact hμ3.trans (mul_le_mul_of_nonneg_left hτe hcfl.le)
          · intro u hu; have := hnext _ _ hu; linarith
        have hl : c.pc.live := by rw [hpc]; trivial
        have hinv' := Inv.step (w := w) hσ (fun _ => rfl) hinv
        apply final_of_step
        rw [hstep] at hinv' ⊢
        rcases body_cases σ o w c with ⟨s1, e, b, ha, _, _, hb⟩ | ⟨s1, e, ha, _, _, hb⟩ | ⟨s1, e, ha, _, hb⟩ |
          ⟨s1, t', k, ha, ht, _, hb⟩ | ⟨s1, ha, _, hb⟩
        · have := (hadv _ _ _ _ ha).1; linarith
        · have := (hadv _ _ _ _ ha).1; linarith
        · have := (hadv _ _ _ _ ha).1; linarith
        · rw [hb] at hinv' ⊢
          rcases endBody_final_or_live σ o w (okCfg σ o w c (σ.postAdvance s1 (dtOf σ o w c)) t') with h | h
          · exact final_here h
          · have hfl := endBody_fields σ o w (okCfg σ o w c (σ.postAdvance s1 (dtOf σ o w c)) t')
            have ht' : t' = c.t + dtOf σ o w c := by
              have hp := (hσ.post_time _ _ _ ha).2
              rw [ht, hσ.pre_time, hinv.live_grid hl] at hp
              simpa using hp
            generalize hc' : endBody σ o w (okCfg σ o w c (σ.postAdvance s1 (dtOf σ o w c)) t') = c' at *
            obtain ⟨B', hB'⟩ : ∃ B' : Nat, o.cfl ^ B' * estOf σ c' ≤ τ := by
              by_cases he : estOf σ c' ≤ τ
              · exact ⟨0, by simpa using he⟩
              · have he : 0 < estOf σ c' := lt_trans hτ (not_le.1 he)
                obtain ⟨n, hn⟩ := exists_pow_lt_of_lt_one (div_pos hτ he) hcfl1
                exact ⟨n, by rw [lt_div_iff₀ he] at hn; exact hn.le⟩
            refine ihA B' c' hinv' ?_ h ?_ hB'
            · intro e he; rw [hfl.2.2.2.1] at he; simp [okCfg] at he
            · rw [hfl.2.2.1]; simp only [okCfg]
              push_cast at hA
              rw [ht']; linarith
        · rw [hb]; exact final_here trivial
      rcases hpc with hpc | hpc
      · apply final_of_step
        by_cases hcond : c.t + o.eps < o.finalTime ∧ (o.maxCycles < 0 ∨ σ.gridCycles c.solver < o.maxCycles)
        · have hs : step σ o w c = { c with pc := .inner } := by unfold step; rw [hpc]; simp [hcond]
          have hinv' := Inv.step (w := w) hσ (fun _ => rfl) hinv
          rw [hs] at hinv' ⊢
          exact main _ hinv' hf rfl hA (by simpa [estOf] using hB)
        · have hs : step σ o w c = { c with pc := .done } := by unfold step; rw [hpc]; simp only [hcond, if_false]
          rw [hs]; exact final_here trivial
      · exact main c hinv hf hpc hA (by simpa using hB)
    | succ B ihB =>
      intro c hinv hf hpc hA hB
      have main : ∀ c : Config K S, Inv σ o (fun _ => ()) c → (∀ e, c.failureDt = some e → τ ≤ e) →
          c.pc = .inner → o.finalTime - c.t ≤ (A + 1 : Nat) * μ → o.cfl ^ (B + 1) * estOf σ c ≤ τ →
          ∃ n, ((step σ o w)^[n] c).pc.isFinal := by
        intro c hinv hf hpc hA hB
        have hstep : step σ o w c = body σ o w c := by unfold step; rw [hpc]
        have hdt : dtOf σ o w c ≤ o.cfl * estOf σ c := limitedDt_le_est _ _ _ _
        have hτe : τ ≤ estOf σ c := by
          unfold estOf; cases hfd : c.failureDt with
          | none => exact hst _
          | some e => exact hf e hfd
        have hdt2 : μ ≤ dtOf σ o w c := by
          apply le_limitedDt
          · have := hinv.inner hpc; linarith
          · exact hμ3.trans (mul_le_mul_of_nonneg_left hτe hcfl.le)
          · intro u hu; have := hnext _ _ hu; linarith
        have hl : c.pc.live := by rw [hpc]; trivial
        have hinv' := Inv.step (w := w) hσ (fun _ => rfl) hinv
        apply final_of_step
        rw [hstep] at hinv' ⊢
        rcases body_cases σ o w c with ⟨s1, e, b, ha, _, _, hb⟩ | ⟨s1, e, ha, _, _, hb⟩ | ⟨s1, e, ha, _, hb⟩ |
          ⟨s1, t', k, ha, ht, _, hb⟩ | ⟨s1, ha, _, hb⟩
        · rw [hb] at hinv' ⊢
          rcases endBody_final_or_live σ o w (failCfg σ o w c b e) with h | h
          · exact final_here h
          · have hfl := endBody_fields σ o w (failCfg σ o w c b e)
            obtain ⟨_, he1, he2⟩ := hadv _ _ _ _ ha
            generalize hc' : endBody σ o w (failCfg σ o w c b e) = c' at *
            have hfd : c'.failureDt = some e := hfl.2.2.2.1
            refine ihB c' hinv' ?_ h ?_ ?_
            · intro e' he'; rw [hfd] at he'; cases he'; exact he1
            · rw [hfl.2.2.1]; exact hA
            · have : estOf σ c' = e := by unfold estOf; rw [hfd]
              rw [this]
              have h3 : o.cfl ^ B * e ≤ o.cfl ^ B * (o.cfl * estOf σ c) :=
                mul_le_mul_of_nonneg_left (he2.trans hdt) (pow_nonneg hcfl.le _)
              calc o.cfl ^ B * e ≤ o.cfl ^ B * (o.cfl * estOf σ c) := h3
                _ = o.cfl ^ (B + 1) * estOf σ c := by ring
                _ ≤ τ := hB
        · rw [hb]; exact final_here trivial
        · rw [hb]; exact final_here trivial
        · rw [hb] at hinv' ⊢
          rcases endBody_final_or_live σ o w (okCfg σ o w c (σ.postAdvance s1 (dtOf σ o w c)) t') with h | h
          · exact final_here h
          · have hfl := endBody_fields σ o w (okCfg σ o w c (σ.postAdvance s1 (dtOf σ o w c)) t')
            have ht' : t' = c.t + dtOf σ o w c := by
              have hp := (hσ.post_time _ _ _ ha).2
              rw [ht, hσ.pre_time, hinv.live_grid hl] at hp
              simpa using hp
            generalize hc' : endBody σ o w (okCfg σ o w c (σ.postAdvance s1 (dtOf σ o w c)) t') = c' at *
            obtain ⟨B', hB'⟩ : ∃ B' : Nat, o.cfl ^ B' * estOf σ c' ≤ τ := by
              by_cases he : estOf σ c' ≤ τ
              · exact ⟨0, by simpa using he⟩
              · have he : 0 < estOf σ c' := lt_trans hτ (not_le.1 he)
                obtain ⟨n, hn⟩ := exists_pow_lt_of_lt_one (div_pos hτ he) hcfl1
                exact ⟨n, by rw [lt_div_iff₀ he] at hn; exact hn.le⟩
            refine ihA B' c' hinv' ?_ h ?_ hB'
            · intro e he; rw [hfl.2.2.2.1] at he; simp [okCfg] at he
            · rw [hfl.2.2.1]; simp only [okCfg]
              push_cast at hA
              rw [ht']; linarith
        · rw [hb]; exact final_here trivial
      rcases hpc with hpc | hpc
      · apply final_of_step
        by_cases hcond : c.t + o.eps < o.finalTime ∧ (o.maxCycles < 0 ∨ σ.gridCycles c.solver < o.maxCycles)
        · have hs : step σ o w c = { c with pc := .inner } := by unfold step; rw [hpc]; simp [hcond]
          have hinv' := Inv.step (w := w) hσ (fun _ => rfl) hinv
          rw [hs] at hinv' ⊢
          exact main _ hinv' hf rfl hA (by simpa [estOf] using hB)
        · have hs : step σ o w c = { c with pc := .done } := by unfold step; rw [hpc]; simp only [hcond, if_false]
          rw [hs]; exact final_here trivial
      · exact main c hinv hf hpc hA hB

end Fub
