import Verif.Spec.RunLoop
import Mathlib.Tactic.Linarith
import Mathlib.Tactic.Ring
import Mathlib.Tactic.Positivity

namespace Fub
open RunLoop

variable {K S : Type} [Field K] [LinearOrder K]

theorem RunLoop.run_succ (σ : Solver K S) (o : RunOptions K) (w : Output K S) (s : S) (n : Nat) :
    run σ o w s (n + 1) = step σ o w (run σ o w s n) := by
  simp [run, Function.iterate_succ_apply']

theorem RunLoop.run_zero (σ : Solver K S) (o : RunOptions K) (w : Output K S) (s : S) :
    run σ o w s 0 = init σ o s := rfl

theorem RunLoop.run_induct {σ : Solver K S} {o : RunOptions K} {w : Output K S} {s : S}
    (P : Config K S → Prop) (h0 : P (init σ o s)) (hs : ∀ c, P c → P (step σ o w c)) (n : Nat) :
    P (run σ o w s n) := by
  induction n with
  | zero => exact h0
  | succ n ih => rw [run_succ]; exact hs _ ih

/-- What the end of the body can do. -/
theorem RunLoop.endBody_cases (σ : Solver K S) (o : RunOptions K) (w : Output K S) (c : Config K S) :
    endBody σ o w c = { c with pc := .ub } ∨
    endBody σ o w c = { c with pc := .outer, trace := Event.output c.solver c.t :: c.trace } ∨
    (endBody σ o w c = { c with pc := .inner } ∧ c.t + o.eps < o.finalTime ∧
      w.shallOutputNow c.solver = some false) := by
  unfold endBody
  dsimp only
  split
  · rename_i h
    split
    · left; rfl
    · right; left; rfl
    · split
      · left; rfl
      · right; left; rfl
      · rename_i h2; right; right; exact ⟨rfl, h, h2⟩
  · right; left; rfl

/-- If the body ends regularly and an output is due (or the loop is over) then the output is invoked. -/
theorem RunLoop.endBody_emit (σ : Solver K S) (o : RunOptions K) (w : Output K S) (c : Config K S)
    (h : w.shallOutputNow c.solver = some true) :
    endBody σ o w c = { c with pc := .ub } ∨
    endBody σ o w c = { c with pc := .outer, trace := Event.output c.solver c.t :: c.trace } := by
  rcases endBody_cases σ o w c with h1 | h1 | ⟨_, _, h1⟩
  · exact Or.inl h1
  · exact Or.inr h1
  · rw [h] at h1; simp at h1

/-- All fields but `pc` and `trace` survive the end of the body. -/
theorem RunLoop.endBody_fields (σ : Solver K S) (o : RunOptions K) (w : Output K S) (c : Config K S) :
    (endBody σ o w c).solver = c.solver ∧ (endBody σ o w c).backup = c.backup ∧
    (endBody σ o w c).t = c.t ∧ (endBody σ o w c).failureDt = c.failureDt ∧
    ((endBody σ o w c).trace = c.trace ∨
      (endBody σ o w c).trace = Event.output c.solver c.t :: c.trace) := by
  rcases endBody_cases σ o w c with h | h | ⟨h, _⟩ <;> rw [h] <;> simp

/-- The configuration after a failed pass, before `endBody`. -/
def RunLoop.failCfg (σ : Solver K S) (o : RunOptions K) (w : Output K S) (c : Config K S) (b : S) (e : K) :
    Config K S :=
  { c with solver := σ.copy b, failureDt := some e,
           trace := Event.attempt c.solver c.t (estOf σ c) (dtOf σ o w c) (some e) :: c.trace }

/-- The configuration after a successful pass, before `endBody`. -/
def RunLoop.okCfg (σ : Solver K S) (o : RunOptions K) (w : Output K S) (c : Config K S) (s' : S) (t' : K) :
    Config K S :=
  { c with solver := s', t := t', failureDt := none,
           trace := Event.attempt c.solver c.t (estOf σ c) (dtOf σ o w c) none :: c.trace,
           backup := if o.doBackup then some (σ.copy s') else c.backup }

/-- Case analysis of one pass of the body. -/
theorem RunLoop.body_cases (σ : Solver K S) (o : RunOptions K) (w : Output K S) (c : Config K S) :
    (∃ s1 e b, σ.advance (σ.preAdvance c.solver) (dtOf σ o w c) = (s1, some e) ∧ o.doBackup = true ∧
      c.backup = some b ∧ body σ o w c = endBody σ o w (failCfg σ o w c b e)) ∨
    (∃ s1 e, σ.advance (σ.preAdvance c.solver) (dtOf σ o w c) = (s1, some e) ∧ o.doBackup = true ∧
      c.backup = none ∧ body σ o w c =
        { c with pc := .ub, trace := Event.attempt c.solver c.t (estOf σ c) (dtOf σ o w c) (some e) :: c.trace }) ∨
    (∃ s1 e, σ.advance (σ.preAdvance c.solver) (dtOf σ o w c) = (s1, some e) ∧ o.doBackup = false ∧
      body σ o w c = { c with
        pc := .aborted, solver := s1,
        trace := Event.attempt c.solver c.t (estOf σ c) (dtOf σ o w c) (some e) :: c.trace }) ∨
    (∃ s1 t' k, σ.advance (σ.preAdvance c.solver) (dtOf σ o w c) = (s1, none) ∧
      σ.time (σ.postAdvance s1 (dtOf σ o w c)) = some t' ∧
      σ.cycles (σ.postAdvance s1 (dtOf σ o w c)) = some k ∧
      body σ o w c = endBody σ o w (okCfg σ o w c (σ.postAdvance s1 (dtOf σ o w c)) t')) ∨
    (∃ s1, σ.advance (σ.preAdvance c.solver) (dtOf σ o w c) = (s1, none) ∧
      (σ.time (σ.postAdvance s1 (dtOf σ o w c)) = none ∨ σ.cycles (σ.postAdvance s1 (dtOf σ o w c)) = none) ∧
      body σ o w c = { c with
        pc := .ub, solver := σ.postAdvance s1 (dtOf σ o w c),
        trace := Event.attempt c.solver c.t (estOf σ c) (dtOf σ o w c) none :: c.trace }) := by
  obtain ⟨⟨s1, e⟩, hr⟩ : ∃ p, p = σ.advance (σ.preAdvance c.solver) (dtOf σ o w c) := ⟨_, rfl⟩
  have hb : body σ o w c = body σ o w c := rfl
  conv at hb => rhs; unfold body
  simp only [← hr] at hb
  cases e with
  | some e =>
    cases hd : o.doBackup with
    | true =>
      cases hbk : c.backup with
      | some b =>
        left
        refine ⟨s1, e, b, hr.symm, rfl, rfl, ?_⟩
        rw [hb]; simp only [hd, hbk, if_true, failCfg]
      | none =>
        right; left
        refine ⟨s1, e, hr.symm, rfl, rfl, ?_⟩
        rw [hb]; simp only [hd, hbk, if_true]
    | false =>
      right; right; left
      refine ⟨s1, e, hr.symm, rfl, ?_⟩
      rw [hb]; simp [hd]
  | none =>
    right; right; right
    cases ht : σ.time (σ.postAdvance s1 (dtOf σ o w c)) with
    | none =>
      right; refine ⟨s1, hr.symm, Or.inl ht, ?_⟩
      rw [hb]; simp [ht]
    | some t' =>
      cases hk : σ.cycles (σ.postAdvance s1 (dtOf σ o w c)) with
      | none =>
        right; refine ⟨s1, hr.symm, Or.inr hk, ?_⟩
        rw [hb]; simp [ht, hk]
      | some k =>
        left; refine ⟨s1, t', k, hr.symm, ht, hk, ?_⟩
        rw [hb]; simp [ht, hk, okCfg]

theorem limitedDt_le_final (o : RunOptions K) (t : K) (next : Option K) (est : K) :
    limitedDt o t next est ≤ o.finalTime - t := by
  unfold limitedDt; cases next <;> simp

theorem limitedDt_le_est (o : RunOptions K) (t : K) (next : Option K) (est : K) :
    limitedDt o t next est ≤ o.cfl * est := by
  unfold limitedDt; cases next <;> simp

theorem limitedDt_le_next (o : RunOptions K) (t u est : K) :
    limitedDt o t (some u) est ≤ u - t := by
  unfold limitedDt; simp

theorem le_limitedDt (o : RunOptions K) (t : K) (next : Option K) (est a : K)
    (h1 : a ≤ o.finalTime - t) (h2 : a ≤ o.cfl * est) (h3 : ∀ u, next = some u → a ≤ u - t) :
    a ≤ limitedDt o t next est := by
  unfold limitedDt; cases next <;> simp_all

end Fub

namespace Fub

/-- A property of every list element together with the elements after it. -/
def AllSuffix {α : Type} (Q : α → List α → Prop) (l : List α) : Prop :=
  ∀ newer x older, l = newer ++ x :: older → Q x older

theorem AllSuffix.nil {α : Type} (Q : α → List α → Prop) : AllSuffix Q [] := by
  intro a x b h; simp at h

theorem AllSuffix.cons {α : Type} {Q : α → List α → Prop} {x : α} {l : List α}
    (h1 : Q x l) (h2 : AllSuffix Q l) : AllSuffix Q (x :: l) := by
  intro a y b h
  cases a with
  | nil => simp at h; obtain ⟨rfl, rfl⟩ := h; exact h1
  | cons z a => simp at h; exact h2 a y b h.2

open RunLoop
variable {K S : Type} [Field K] [LinearOrder K]

/-- Every event a step adds to the trace satisfies `Q` together with the older events, provided attempts made
in live states and outputs do. -/
theorem RunLoop.step_allSuffix {σ : Solver K S} {o : RunOptions K} {w : Output K S}
    {Q : Event K S → List (Event K S) → Prop} {c : Config K S}
    (hatt : c.pc = .inner → ∀ e, (σ.advance (σ.preAdvance c.solver) (dtOf σ o w c)).2 = e →
      Q (.attempt c.solver c.t (estOf σ c) (dtOf σ o w c) e) c.trace)
    (hout : ∀ s t tr, Q (.output s t) tr)
    (h : AllSuffix Q c.trace) : AllSuffix Q (step σ o w c).trace := by
  have hend : ∀ c' : Config K S, AllSuffix Q c'.trace → AllSuffix Q (endBody σ o w c').trace := by
    intro c' h'
    rcases (endBody_fields σ o w c').2.2.2.2 with h2 | h2 <;> rw [h2]
    · exact h'
    · exact AllSuffix.cons (hout _ _ _) h'
  unfold step
  split
  · split <;> exact h
  · rename_i hpc
    have hatt := hatt hpc
    rcases body_cases σ o w c with ⟨s1, e, b, ha, _, _, hb⟩ | ⟨s1, e, ha, _, _, hb⟩ | ⟨s1, e, ha, _, hb⟩ |
        ⟨s1, t', k, ha, _, _, hb⟩ | ⟨s1, ha, _, hb⟩ <;> rw [hb]
    · exact hend _ (AllSuffix.cons (hatt _ (by rw [ha])) h)
    · exact AllSuffix.cons (hatt _ (by rw [ha])) h
    · exact AllSuffix.cons (hatt _ (by rw [ha])) h
    · exact hend _ (AllSuffix.cons (hatt _ (by rw [ha])) h)
    · exact AllSuffix.cons (hatt _ (by rw [ha])) h
  · exact h

/-- The basic invariant of the run loop. -/
structure RunLoop.Inv {Ω : Type} (σ : Solver K S) (o : RunOptions K) (obs : S → Ω) (c : Config K S) : Prop where
  live_grid : c.pc.live → σ.gridTime c.solver = c.t
  backup : o.doBackup = true → ∃ b, c.backup = some b ∧ (c.pc.live → obs b = obs c.solver ∧ σ.gridTime b = c.t)
  fail : c.pc.live → c.failureDt = pendingError c.trace
  inner : c.pc = .inner → c.t + o.eps < o.finalTime
  last : c.pc.live → ∀ s t e, lastAttempt c.trace = some (s, t, some e) → obs c.solver = obs s ∧ c.t = t

theorem pendingError_attempt (s : S) (t est dt : K) (e : Option K) (tr : List (Event K S)) :
    pendingError (.attempt s t est dt e :: tr) = e := rfl

theorem pendingError_output (s : S) (t : K) (tr : List (Event K S)) :
    pendingError (.output s t :: tr) = pendingError tr := rfl

theorem lastAttempt_output (s : S) (t : K) (tr : List (Event K S)) :
    lastAttempt (.output s t :: tr) = lastAttempt tr := rfl

theorem RunLoop.Inv.init {Ω : Type} {σ : Solver K S} {o : RunOptions K} {obs : S → Ω}
    (hσ : σ.Lawful) (hobs : ∀ s, obs (σ.copy s) = obs s) (s : S) : Inv σ o obs (init σ o s) := by
  constructor
  · intro _; rfl
  · intro h; refine ⟨σ.copy s, by simp [RunLoop.init, h], fun _ => ⟨hobs s, hσ.copy_time s⟩⟩
  · intro _; rfl
  · intro h; simp [RunLoop.init] at h
  · intro _ s t e h; simp [RunLoop.init, lastAttempt] at h

/-- The invariant survives the end of the body. -/
theorem RunLoop.Inv.endBody {Ω : Type} {σ : Solver K S} {o : RunOptions K} {w : Output K S} {obs : S → Ω}
    {c : Config K S} (hl : c.pc.live) (h : Inv σ o obs { c with pc := .outer }) :
    Inv σ o obs (endBody σ o w c) := by
  have hol : Pc.live .outer := trivial
  rcases endBody_cases σ o w c with h2 | h2 | ⟨h2, h3, _⟩ <;> rw [h2]
  · constructor
    · intro hh; exact hh.elim
    · intro hb; obtain ⟨b, hb1, _⟩ := h.backup hb; exact ⟨b, hb1, fun hh => hh.elim⟩
    · intro hh; exact hh.elim
    · intro hh; simp at hh
    · intro hh; exact hh.elim
  · constructor
    · intro _; exact h.live_grid hol
    · intro hb; obtain ⟨b, hb1, hb2⟩ := h.backup hb; exact ⟨b, hb1, fun _ => hb2 hol⟩
    · intro _; exact h.fail hol
    · intro hh; simp at hh
    · intro _; exact h.last hol
  · constructor
    · intro _; exact h.live_grid hol
    · intro hb; obtain ⟨b, hb1, hb2⟩ := h.backup hb; exact ⟨b, hb1, fun _ => hb2 hol⟩
    · intro _; exact h.fail hol
    · intro _; exact h3
    · intro _; exact h.last hol

theorem RunLoop.Inv.step {Ω : Type} {σ : Solver K S} {o : RunOptions K} {w : Output K S} {obs : S → Ω}
    (hσ : σ.Lawful) (hobs : ∀ s, obs (σ.copy s) = obs s) {c : Config K S}
    (h : Inv σ o obs c) : Inv σ o obs (step σ o w c) := by
  unfold RunLoop.step
  split
  · rename_i hpc
    have hl : c.pc.live := by rw [hpc]; trivial
    split
    · rename_i hc
      constructor
      · intro _; exact h.live_grid hl
      · intro hb; obtain ⟨b, hb1, hb2⟩ := h.backup hb; exact ⟨b, hb1, fun _ => hb2 hl⟩
      · intro _; exact h.fail hl
      · intro _; exact hc.1
      · intro _; exact h.last hl
    · constructor
      · intro _; exact h.live_grid hl
      · intro hb; obtain ⟨b, hb1, hb2⟩ := h.backup hb; exact ⟨b, hb1, fun _ => hb2 hl⟩
      · intro _; exact h.fail hl
      · intro hh; simp at hh
      · intro _; exact h.last hl
  · rename_i hpc
    have hl : c.pc.live := by rw [hpc]; trivial
    rcases body_cases σ o w c with ⟨s1, e, b, ha, hd, hbk, hb⟩ | ⟨s1, e, ha, hd, hbk, hb⟩ | ⟨s1, e, ha, hd, hb⟩ |
        ⟨s1, t', k, ha, ht, hk, hb⟩ | ⟨s1, ha, _, hb⟩ <;> rw [hb]
    · apply Inv.endBody (by simpa [failCfg] using hl)
      obtain ⟨b', hb1, hb2⟩ := h.backup hd
      rw [hbk] at hb1; cases hb1
      obtain ⟨hb2, hb3⟩ := hb2 hl
      constructor
      · intro _; simp [failCfg, hσ.copy_time, hb3]
      · intro _; exact ⟨b, hbk, fun _ => ⟨by simp [failCfg, hobs], hb3⟩⟩
      · intro _; rfl
      · intro hh; simp at hh
      · intro _ s t e' hh
        simp [failCfg, lastAttempt] at hh
        obtain ⟨rfl, rfl, _⟩ := hh
        exact ⟨by simp [failCfg, hobs, hb2], rfl⟩
    · obtain ⟨b', hb1, hb2⟩ := h.backup hd
      rw [hbk] at hb1; cases hb1
    · constructor
      · intro hh; exact hh.elim
      · intro hd'; rw [hd] at hd'; cases hd'
      · intro hh; exact hh.elim
      · intro hh; simp at hh
      · intro hh; exact hh.elim
    · apply Inv.endBody (by simpa [okCfg] using hl)
      have hp := hσ.post_time _ _ _ ha
      rw [ht] at hp
      have ht' : t' = σ.gridTime (σ.preAdvance c.solver) + dtOf σ o w c := by simpa using hp.2
      constructor
      · intro _; simp [okCfg, hp.1, ht']
      · intro hd
        refine ⟨σ.copy (σ.postAdvance s1 (dtOf σ o w c)), by simp [okCfg, hd], fun _ => ⟨by simp [okCfg, hobs], ?_⟩⟩
        simp [okCfg, hσ.copy_time, hp.1, ht']
      · intro _; rfl
      · intro hh; simp at hh
      · intro _ s t e hh; simp [okCfg, lastAttempt] at hh
    · constructor
      · intro hh; exact hh.elim
      · intro hd; obtain ⟨b, hb1, _⟩ := h.backup hd; exact ⟨b, hb1, fun hh => hh.elim⟩
      · intro hh; exact hh.elim
      · intro hh; simp at hh
      · intro hh; exact hh.elim
  · exact h

theorem RunLoop.Inv.run {Ω : Type} {σ : Solver K S} {o : RunOptions K} {w : Output K S} {obs : S → Ω}
    (hσ : σ.Lawful) (hobs : ∀ s, obs (σ.copy s) = obs s) (s : S) (n : Nat) : Inv σ o obs (run σ o w s n) :=
  run_induct _ (Inv.init hσ hobs s) (fun _ h => Inv.step hσ hobs h) n

end Fub
