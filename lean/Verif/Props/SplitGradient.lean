import Verif.Spec.SplitGradient
import Mathlib.Tactic.NormNum
import Mathlib.Tactic.Ring
import Mathlib.Algebra.Order.Ring.Rat

/-!
# The memory of the second order cut-cell method (C196)
-/

namespace Fub

section
variable {K S G R : Type} [Field K] [LinearOrder K]

/-- The state before a split step: memory, directions that were used, number of split steps. -/
structure AtStep (seen : List Int) (n : Nat) (m : GradMem S G R) (st : SplitState (Option (GradMem S G R))) : Prop where
  ctx : st.ctx = some m
  count : ∀ d, 0 < st.count d ↔ d ∈ seen
  shared : st.shared = n

/-- The result of a run agrees with the ideal result on the level, and other levels are unchanged. -/
def RunsTo (level : Nat) (m0 : GradMem S G R) (seen : List Int) (n : Nat) (r : SplitState (Option (GradMem S G R)) × Option (StepErr K))
    (ideal : S × Option (StepErr K)) : Prop :=
  r.2 = ideal.2 ∧ ∃ m, r.1.ctx = some m ∧ m.lev level = ideal.1 ∧ (∀ k ≠ level, m.lev k = m0.lev k ∧ m.refs k = m0.refs k) ∧
    (ideal.2 = none → AtStep seen n m r.1)

/-- One split step with reference states `r`, which are either new or remembered. -/
theorem gradStep (o : GradOps K S G R) (big : K) (level : Nat) (hf : o.forwards = true) (hs : 3 ≤ o.slots) (seen : List Int) (n : Nat) (m : GradMem S G R)
    (st : SplitState (Option (GradMem S G R))) (h : AtStep seen n m st) (r : R) (dir : Int) (dt : K)
    (hr : if n % o.dim = 0 then r = o.walls level (startOfSplit o level seen dir (m.lev level)) (o.grad level (startOfSplit o level seen dir (m.lev level)))
      else m.refs level = some r) :
    ∃ m', (splitOp (gradDirOps o big level) level dir dt st).1.ctx = some m' ∧ m'.refs level = some r ∧
      (∀ k ≠ level, m'.lev k = m.lev k ∧ m'.refs k = m.refs k) ∧
      AtStep (dir :: seen) (n + 1) m' (splitOp (gradDirOps o big level) level dir dt st).1 ∧
      (m'.lev level, (splitOp (gradDirOps o big level) level dir dt st).2) = idealSweep o level r [(dir, dt)] seen (m.lev level) := by
  obtain ⟨ctx, count, shared⟩ := st
  obtain ⟨h1, h2, h3⟩ := h
  simp only at h1 h2 h3
  subst h1 h3
  have hc : ∀ d, 0 < (if d = dir then count dir + 1 else count d) ↔ d ∈ dir :: seen := by
    intro d
    by_cases hd : d = dir
    · simp [hd]
    · simp [hd, h2]
  -- the data after the boundary condition
  obtain ⟨m1, hm1, hl1, hk1, hr1⟩ : ∃ m1 : GradMem S G R, (if count dir > 0 then (gradDirOps o big level).applyBc dir (some m) else some m) = some m1 ∧
      m1.lev level = startOfSplit o level seen dir (m.lev level) ∧ (∀ k ≠ level, m1.lev k = m.lev k) ∧ m1.refs = m.refs := by
    by_cases hd : dir ∈ seen
    · have : count dir > 0 := (h2 dir).mpr hd
      rw [if_pos this]
      exact ⟨_, rfl, by simp [startOfSplit, hd], fun k hk => by simp [hk], rfl⟩
    · have : ¬ count dir > 0 := fun h => hd ((h2 dir).mp h)
      rw [if_neg this]
      exact ⟨m, rfl, by simp [startOfSplit, hd], fun k hk => rfl, rfl⟩
  -- after PreSplitStep
  obtain ⟨m2, hm2, hl2, hg2, hk2, hr2, hq2⟩ : ∃ m2 : GradMem S G R, (gradDirOps o big level).preSplit dt dir shared (some m1) = some m2 ∧ m2.lev = m1.lev ∧
      m2.grads = some (level, o.grad level (m1.lev level)) ∧ (∀ k ≠ level, m2.refs k = m1.refs k) ∧ m2.refs level = some r ∧ True := by
    by_cases hn : shared % o.dim = 0
    · rw [if_pos hn] at hr
      refine ⟨{ m1 with grads := some (level, o.grad level (m1.lev level)), refs := fun k => if k = level then some (o.walls level (m1.lev level) (o.grad level (m1.lev level))) else m1.refs k },
        by simp only [gradDirOps, Option.bind_some, gradPreSplit, hf, if_true, hn, hs], rfl, rfl, fun k hk => by simp [hk], ?_, trivial⟩
      simp [hr, hl1]
    · rw [if_neg hn] at hr
      refine ⟨{ m1 with grads := some (level, o.grad level (m1.lev level)) },
        by simp only [gradDirOps, Option.bind_some, gradPreSplit, hf, if_true, hn, if_false], rfl, rfl, fun k hk => rfl, ?_, trivial⟩
      simp [hr1, hr]
  have hlim : minAll ((gradDirOps o big level).localDt (some m2) dir) (gradDirOps o big level).ranks =
      minAll (o.stable level (startOfSplit o level seen dir (m.lev level)) dir) o.ranks := by
    simp only [gradDirOps, hl2, hl1]
  simp only [splitOp, hm1, hm2, hlim, idealSweep]
  by_cases hd : minAll (o.stable level (startOfSplit o level seen dir (m.lev level)) dir) o.ranks < dt
  · rw [if_pos hd, if_pos hd]
    exact ⟨m2, rfl, hr2, fun k hk => ⟨by rw [hl2, hk1 k hk], by rw [hk2 k hk, hr1]⟩, ⟨rfl, hc, rfl⟩, by rw [hl2, hl1]⟩
  · rw [if_neg hd, if_neg hd]
    have hfl : (gradDirOps o big level).fluxes dt dir (some m2) = some { m2 with
        lev := fun k => if k = level then o.advance level dt dir (o.grad level (m1.lev level)) r (m2.lev level) else m2.lev k } := by
      simp only [gradDirOps, Option.bind_some, gradFluxes, hg2, hr2, true_and, hs, if_true]
    refine ⟨_, hfl, hr2, fun k hk => ⟨?_, ?_⟩, ⟨hfl, hc, rfl⟩, ?_⟩
    · simp only [hk, if_false]; rw [hl2, hk1 k hk]
    · simp only; rw [hk2 k hk, hr1]
    · simp only [if_true, hl2, hl1]

/-- The first step of a list of steps of a sweep and the others. -/
theorem idealSweep_cons (o : GradOps K S G R) (level : Nat) (r : R) (dir : Int) (dt : K) (rest : List (Int × K)) (seen : List Int) (s : S) :
    idealSweep o level r ((dir, dt) :: rest) seen s = andThen (idealSweep o level r [(dir, dt)] seen s) (idealSweep o level r rest (dir :: seen)) := by
  simp only [idealSweep]
  by_cases hd : minAll (o.stable level (startOfSplit o level seen dir s) dir) o.ranks < dt
  · simp [hd, andThen]
  · simp [hd, andThen]

/-- The steps of a sweep after the first one. -/
theorem gradRest (o : GradOps K S G R) (big : K) (level : Nat) (hf : o.forwards = true) (hs : 3 ≤ o.slots) (r : R) :
    ∀ (steps : List (Int × K)) (seen : List Int) (n : Nat) (m : GradMem S G R) (st : SplitState (Option (GradMem S G R))), AtStep seen n m st →
      m.refs level = some r → (steps ≠ [] → 0 < n % o.dim ∧ n % o.dim + steps.length ≤ o.dim) →
      RunsTo level m ((steps.map Prod.fst).reverse ++ seen) (n + steps.length) (runDirSteps (gradDirOps o big level) level steps st)
        (idealSweep o level r steps seen (m.lev level)) := by
  intro steps
  induction steps with
  | nil => intro seen n m st h hr _; exact ⟨rfl, m, h.ctx, rfl, fun k hk => ⟨rfl, rfl⟩, fun _ => h⟩
  | cons p rest ih =>
    obtain ⟨dir, dt⟩ := p
    intro seen n m st h hr hn
    obtain ⟨hn1, hn2⟩ := hn (by simp)
    obtain ⟨m', hc, hr', hk, ha, he⟩ := gradStep o big level hf hs seen n m st h r dir dt (by rw [if_neg (by omega)]; exact hr)
    rw [idealSweep_cons, ← he]
    unfold runDirSteps
    generalize splitOp (gradDirOps o big level) level dir dt st = q at hc ha he ⊢
    obtain ⟨st', e⟩ := q
    cases e with
    | some e => exact ⟨rfl, m', hc, rfl, hk, fun hh => by simp [andThen] at hh⟩
    | none =>
      simp only [andThen]
      have hlen : n % o.dim + 1 + rest.length ≤ o.dim := by simp only [List.length_cons] at hn2; omega
      obtain ⟨k1, m2, k2, k3, k4, k5⟩ := ih (dir :: seen) (n + 1) m' st' ha hr' (fun hne => by
        have h0 : 0 < rest.length := List.length_pos_iff.mpr hne
        have : (n + 1) % o.dim = n % o.dim + 1 := by
          rw [Nat.add_mod, Nat.mod_eq_of_lt (a := 1) (by omega), Nat.mod_eq_of_lt (by omega)]
        omega)
      refine ⟨k1, m2, k2, k3, fun k hk' => ⟨(k4 k hk').1.trans (hk k hk').1, (k4 k hk').2.trans (hk k hk').2⟩, fun hh => ?_⟩
      have := k5 hh
      simpa [Nat.add_assoc, Nat.add_comm 1] using this

/-- One sweep. -/
theorem gradSweep (o : GradOps K S G R) (big : K) (level : Nat) (hf : o.forwards = true) (hs : 3 ≤ o.slots) (dir : Int) (dt : K) (rest : List (Int × K))
    (hl : rest.length + 1 ≤ o.dim) (seen : List Int) (n : Nat) (hn : n % o.dim = 0) (m : GradMem S G R) (st : SplitState (Option (GradMem S G R)))
    (h : AtStep seen n m st) :
    RunsTo level m ((((dir, dt) :: rest).map Prod.fst).reverse ++ seen) (n + (rest.length + 1))
      (runDirSteps (gradDirOps o big level) level ((dir, dt) :: rest) st)
      (idealSweep o level (o.walls level (startOfSplit o level seen dir (m.lev level)) (o.grad level (startOfSplit o level seen dir (m.lev level))))
        ((dir, dt) :: rest) seen (m.lev level)) := by
  obtain ⟨m', hc, hr', hk, ha, he⟩ := gradStep o big level hf hs seen n m st h _ dir dt (by rw [if_pos hn])
  rw [idealSweep_cons, ← he]
  unfold runDirSteps
  generalize splitOp (gradDirOps o big level) level dir dt st = q at hc ha he ⊢
  obtain ⟨st', e⟩ := q
  cases e with
  | some e => exact ⟨rfl, m', hc, rfl, hk, fun hh => by simp [andThen] at hh⟩
  | none =>
    simp only [andThen]
    obtain ⟨k1, m2, k2, k3, k4, k5⟩ := gradRest o big level hf hs _ rest (dir :: seen) (n + 1) m' st' ha hr' (fun hne => by
      have h0 : 0 < rest.length := List.length_pos_iff.mpr hne
      have : (n + 1) % o.dim = 1 := by
        rw [Nat.add_mod, hn, Nat.zero_add, Nat.mod_mod, Nat.mod_eq_of_lt (by omega)]
      omega)
    refine ⟨k1, m2, k2, k3, fun k hk' => ⟨(k4 k hk').1.trans (hk k hk').1, (k4 k hk').2.trans (hk k hk').2⟩, fun hh => ?_⟩
    have := k5 hh
    simpa [Nat.add_assoc, Nat.add_comm 1] using this

/-- Two lists of steps after each other. -/
theorem runDirSteps_append {T : Type} (o : DirOps K T) (level : Nat) (b : List (Int × K)) : ∀ (a : List (Int × K)) (st : SplitState T),
    runDirSteps o level (a ++ b) st = andThen (runDirSteps o level a st) (runDirSteps o level b)
  | [], st => rfl
  | (dir, dt) :: a, st => by
    have e1 : runDirSteps o level ((dir, dt) :: a ++ b) st = andThen (splitOp o level dir dt st) (runDirSteps o level (a ++ b)) := rfl
    have e2 : runDirSteps o level ((dir, dt) :: a) st = andThen (splitOp o level dir dt st) (runDirSteps o level a) := rfl
    rw [e1, e2]
    rcases splitOp o level dir dt st with ⟨st', _ | e⟩
    · exact runDirSteps_append o level b a st'
    · rfl

/-- All sweeps, started after a number of complete sweeps. -/
theorem gradSweeps (o : GradOps K S G R) (big : K) (level : Nat) (hf : o.forwards = true) (hs : 3 ≤ o.slots) (hd : 0 < o.dim) (last : List (Int × K))
    (hlast : last.length ≤ o.dim) : ∀ (sweeps : List (List (Int × K))), (∀ w ∈ sweeps, w.length = o.dim) →
    ∀ (seen : List Int) (n : Nat) (m : GradMem S G R) (st : SplitState (Option (GradMem S G R))), AtStep seen n m st → n % o.dim = 0 →
      ∃ seen' n', RunsTo level m seen' n' (runDirSteps (gradDirOps o big level) level (sweeps ++ [last]).flatten st)
        (idealSweeps o level (sweeps ++ [last]) seen (m.lev level)) := by
  intro sweeps
  induction sweeps with
  | nil =>
    intro _ seen n m st h hn
    cases last with
    | nil => exact ⟨seen, n, rfl, m, h.ctx, rfl, fun k hk => ⟨rfl, rfl⟩, fun _ => h⟩
    | cons p rest =>
      obtain ⟨dir, dt⟩ := p
      refine ⟨(((dir, dt) :: rest).map Prod.fst).reverse ++ seen, n + (rest.length + 1), ?_⟩
      · have := gradSweep o big level hf hs dir dt rest hlast seen n hn m st h
        have e : idealSweeps o level ([] ++ [(dir, dt) :: rest]) seen (m.lev level) = idealSweep o level (o.walls level (startOfSplit o level seen dir (m.lev level))
            (o.grad level (startOfSplit o level seen dir (m.lev level)))) ((dir, dt) :: rest) seen (m.lev level) := by
          simp only [List.nil_append, idealSweeps]
          generalize idealSweep o level _ ((dir, dt) :: rest) seen (m.lev level) = q
          rcases q with ⟨s, _ | e⟩ <;> rfl
        rw [e]
        simpa using this
  | cons w more ih =>
    intro hw seen n m st h hn
    have hwl := hw w (by simp)
    cases w with
    | nil => simp only [List.length_nil] at hwl; omega
    | cons p rest =>
      obtain ⟨dir, dt⟩ := p
      simp only [List.length_cons] at hwl
      have hq := gradSweep o big level hf hs dir dt rest (by omega) seen n hn m st h
      have e1 : runDirSteps (gradDirOps o big level) level (((dir, dt) :: rest) :: more ++ [last]).flatten st =
          andThen (runDirSteps (gradDirOps o big level) level ((dir, dt) :: rest) st) (runDirSteps (gradDirOps o big level) level (more ++ [last]).flatten) := by
        rw [← runDirSteps_append]; rfl
      have e2 : idealSweeps o level (((dir, dt) :: rest) :: more ++ [last]) seen (m.lev level) = andThen (idealSweep o level (o.walls level
            (startOfSplit o level seen dir (m.lev level)) (o.grad level (startOfSplit o level seen dir (m.lev level)))) ((dir, dt) :: rest) seen (m.lev level))
          (idealSweeps o level (more ++ [last]) ((((dir, dt) :: rest).map Prod.fst).reverse ++ seen)) := rfl
      rw [e1, e2]
      generalize idealSweep o level _ ((dir, dt) :: rest) seen (m.lev level) = q2 at hq ⊢
      generalize runDirSteps (gradDirOps o big level) level ((dir, dt) :: rest) st = q1 at hq ⊢
      obtain ⟨st', e⟩ := q1
      obtain ⟨s', e'⟩ := q2
      obtain ⟨k1, m2, k2, k3, k4, k5⟩ := hq
      simp only at k1 k2 k3 k5
      subst k1
      cases e with
      | some e => exact ⟨[], 0, rfl, m2, k2, k3, k4, fun hh => by simp [andThen] at hh⟩
      | none =>
        simp only [andThen]
        rw [← k3]
        obtain ⟨seen', n', j1, m3, j2, j3, j4, j5⟩ := ih (fun w hw' => hw w (by simp [hw'])) _ (n + (rest.length + 1)) m2 st' (k5 rfl)
          (by rw [hwl, Nat.add_mod_right, hn])
        exact ⟨seen', n', j1, m3, j2, j3, fun k hk => ⟨(j4 k hk).1.trans (k4 k hk).1, (j4 k hk).2.trans (k4 k hk).2⟩, j5⟩

/-- **C196.** A time step on a level whose split steps form sweeps through as many steps as there are space dimensions (the last sweep may be shorter) does the following, if the
reference gradients of three directions exist and the context passes the call on: the reference states at the walls are computed at the begin of each sweep from the states and gradients
there, each split step uses these and the gradients of its present states, and the first step that is too large ends the run with its step size. This depends only on the data of the level: not on gradients of
other levels or earlier steps nor on older reference states. Data and reference states of other levels do not change. -/
theorem gradient_sweeps (o : GradOps K S G R) (big : K) (level : Nat) (hf : o.forwards = true) (hs : 3 ≤ o.slots) (hd : 0 < o.dim)
    (sweeps : List (List (Int × K))) (hw : ∀ w ∈ sweeps, w.length = o.dim) (last : List (Int × K)) (hlast : last.length ≤ o.dim) (m : GradMem S G R) :
    let r := runDirSteps (gradDirOps o big level) level (sweeps ++ [last]).flatten ⟨some m, fun _ => 0, 0⟩
    levelOutcome level (r.1.ctx, r.2) = some (idealSweeps o level (sweeps ++ [last]) [] (m.lev level)) ∧
      ∃ m', r.1.ctx = some m' ∧ ∀ k ≠ level, m'.lev k = m.lev k ∧ m'.refs k = m.refs k := by
  obtain ⟨seen', n', k1, m', k2, k3, k4, -⟩ := gradSweeps o big level hf hs hd last hlast sweeps hw [] 0 m ⟨some m, fun _ => 0, 0⟩ ⟨rfl, by simp, rfl⟩ (Nat.zero_mod _)
  refine ⟨?_, m', k2, k4⟩
  simp only [levelOutcome, k2, Option.map_some, k3, k1]

/-- The steps of the splitting methods as lists. -/
theorem runDirSteps_godunov2 {T : Type} (o : DirOps K T) (level : Nat) (d1 d2 : Int) (dt : K) (st : SplitState T) :
    advanceRec godunovSplit ([d1, d2].map (splitOp o level)) dt st = runDirSteps o level [(d1, dt), (d2, dt)] st := by
  simp only [List.map_cons, List.map_nil, advanceRec, godunovSplit, runDirSteps]
  rcases splitOp o level d1 dt st with ⟨s, _ | e⟩ <;> simp only [andThen]
  rcases splitOp o level d2 dt s with ⟨s, _ | e⟩ <;> rfl

theorem runDirSteps_strang2 {T : Type} (o : DirOps K T) (level : Nat) (d1 d2 : Int) (dt : K) (st : SplitState T) :
    advanceRec strangSplit ([d1, d2].map (splitOp o level)) dt st =
      runDirSteps o level [(d1, 1 / 2 * dt), (d2, 1 / 2 * dt), (d2, 1 / 2 * dt), (d1, 1 / 2 * dt)] st := by
  simp only [List.map_cons, List.map_nil, advanceRec, strangSplit, runDirSteps]
  rcases splitOp o level d1 (1 / 2 * dt) st with ⟨s, _ | e⟩ <;> simp only [andThen]
  rcases splitOp o level d2 (1 / 2 * dt) s with ⟨s, _ | e⟩ <;> simp only
  rcases splitOp o level d2 (1 / 2 * dt) s with ⟨s, _ | e⟩ <;> simp only
  rcases splitOp o level d1 (1 / 2 * dt) s with ⟨s, _ | e⟩ <;> rfl

theorem runDirSteps_godunov3 {T : Type} (o : DirOps K T) (level : Nat) (d1 d2 d3 : Int) (dt : K) (st : SplitState T) :
    advanceRec godunovSplit ([d1, d2, d3].map (splitOp o level)) dt st = runDirSteps o level [(d1, dt), (d2, dt), (d3, dt)] st := by
  simp only [List.map_cons, List.map_nil, advanceRec, godunovSplit, runDirSteps]
  rcases splitOp o level d1 dt st with ⟨s, _ | e⟩ <;> simp only [andThen]
  rcases splitOp o level d2 dt s with ⟨s, _ | e⟩ <;> simp only
  rcases splitOp o level d3 dt s with ⟨s, _ | e⟩ <;> rfl

theorem runDirSteps_strang3 {T : Type} (o : DirOps K T) (level : Nat) (d1 d2 d3 : Int) (dt : K) (st : SplitState T) :
    strangSplit3 dt (splitOp o level d1) (splitOp o level d2) (splitOp o level d3) st =
      runDirSteps o level [(d1, 1 / 2 * dt), (d2, 1 / 2 * dt), (d3, 1 / 2 * dt), (d3, 1 / 2 * dt), (d2, 1 / 2 * dt), (d1, 1 / 2 * dt)] st := by
  simp only [strangSplit3, runDirSteps]
  rcases splitOp o level d1 (1 / 2 * dt) st with ⟨s, _ | e⟩ <;> simp only [andThen]
  rcases splitOp o level d2 (1 / 2 * dt) s with ⟨s, _ | e⟩ <;> simp only
  rcases splitOp o level d3 (1 / 2 * dt) s with ⟨s, _ | e⟩ <;> simp only
  rcases splitOp o level d3 (1 / 2 * dt) s with ⟨s, _ | e⟩ <;> simp only
  rcases splitOp o level d2 (1 / 2 * dt) s with ⟨s, _ | e⟩ <;> simp only
  rcases splitOp o level d1 (1 / 2 * dt) s with ⟨s, _ | e⟩ <;> rfl

/-- **C196 (three dimensions).** In three dimensions the code is defined and has no memory on a single block: with Godunov splitting a time step is one sweep with one set of reference
states, with the three-operator Strang splitting two sweeps, forth and back, with a set of reference states each. -/
theorem gradient_space (o : GradOps K S G R) (big : K) (level : Nat) (h3 : o.dim = 3) (m : GradMem S G R) (cycle sub : Int) (dt : K) :
    let p := fubGradOps .single o
    let dirs := makeSplitDirections 3 cycle sub
    let d := fun i : Nat => dirs.getD i 0
    levelOutcome level (advanceNonRecursively (gradDirOps p big level) godunovSplit 3 level cycle sub dt (some m)) =
        some (idealSweeps p level [[(d 0, dt), (d 1, dt), (d 2, dt)]] [] (m.lev level)) ∧
      (let r := strangSplit3 dt (splitOp (gradDirOps p big level) level (d 0)) (splitOp (gradDirOps p big level) level (d 1))
          (splitOp (gradDirOps p big level) level (d 2)) ⟨some m, fun _ => 0, 0⟩;
        levelOutcome level (r.1.ctx, r.2) = some (idealSweeps p level [[(d 0, 1 / 2 * dt), (d 1, 1 / 2 * dt), (d 2, 1 / 2 * dt)],
          [(d 2, 1 / 2 * dt), (d 1, 1 / 2 * dt), (d 0, 1 / 2 * dt)]] [] (m.lev level))) := by
  intro p dirs d
  have hp : p.dim = 3 := h3
  have hps : p.slots = 3 := h3
  have hdirs : makeSplitDirections 3 cycle sub = [d 0, d 1, d 2] := rfl
  constructor
  · have h := (gradient_sweeps p big level rfl (by omega) (by omega) [] (by simp) [(d 0, dt), (d 1, dt), (d 2, dt)] (by simp [hp]) m).1
    simp only [advanceNonRecursively, hdirs, runDirSteps_godunov3]
    exact h
  · have h := (gradient_sweeps p big level rfl (by omega) (by omega) [[(d 0, 1 / 2 * dt), (d 1, 1 / 2 * dt), (d 2, 1 / 2 * dt)]] (by simp [hp])
      [(d 2, 1 / 2 * dt), (d 1, 1 / 2 * dt), (d 0, 1 / 2 * dt)] (by simp [hp]) m).1
    intro r
    simp only [r, runDirSteps_strang3]
    exact h

/-- **C196 (plane flows, with a third reference gradient).** The same in two dimensions for the splitting methods as the level integrator calls them, if the array of reference gradients had three elements. -/
theorem gradient_plane_partial (o : GradOps K S G R) (big : K) (level : Nat) (h2 : o.dim = 2) (hf : o.forwards = true) (hs : 3 ≤ o.slots)
    (m : GradMem S G R) (cycle sub : Int) (dt : K) :
    let dirs := makeSplitDirections 2 cycle sub
    let d := fun i : Nat => dirs.getD i 0
    levelOutcome level (advanceNonRecursively (gradDirOps o big level) godunovSplit 2 level cycle sub dt (some m)) =
        some (idealSweeps o level [[(d 0, dt), (d 1, dt)]] [] (m.lev level)) ∧
      levelOutcome level (advanceNonRecursively (gradDirOps o big level) strangSplit 2 level cycle sub dt (some m)) =
        some (idealSweeps o level [[(d 0, 1 / 2 * dt), (d 1, 1 / 2 * dt)], [(d 1, 1 / 2 * dt), (d 0, 1 / 2 * dt)]] [] (m.lev level)) := by
  intro dirs d
  have hdirs : makeSplitDirections 2 cycle sub = [d 0, d 1] := rfl
  constructor
  · have h := (gradient_sweeps o big level hf hs (by omega) [] (by simp) [(d 0, dt), (d 1, dt)] (by simp [h2]) m).1
    simp only [advanceNonRecursively, hdirs, runDirSteps_godunov2]
    exact h
  · have h := (gradient_sweeps o big level hf hs (by omega) [[(d 0, 1 / 2 * dt), (d 1, 1 / 2 * dt)]] (by simp [h2])
      [(d 1, 1 / 2 * dt), (d 0, 1 / 2 * dt)] (by simp [h2]) m).1
    simp only [advanceNonRecursively, hdirs, runDirSteps_strang2]
    exact h

/-- **C196, false in two dimensions.** The array has two elements: the first split step of every time step, with any data and any splitting that calls the first direction first, reads beyond it. -/
theorem gradient_plane_undefined (o : GradOps K S G R) (big : K) (level : Nat) (h2 : o.dim = 2) (m : GradMem S G R) (dir : Int) (dt : K) (rest : List (Int × K)) :
    (runDirSteps (gradDirOps (fubGradOps .single o) big level) level ((dir, dt) :: rest) ⟨some m, fun _ => 0, 0⟩).1.ctx = none := by
  have hnone : ∀ (l : List (Int × K)) (st : SplitState (Option (GradMem S G R))), st.ctx = none →
      (runDirSteps (gradDirOps (fubGradOps .single o) big level) level l st).1.ctx = none := by
    intro l
    induction l with
    | nil => intro st h; exact h
    | cons p l ih =>
      obtain ⟨dir, dt⟩ := p
      intro st h
      unfold runDirSteps
      have : (splitOp (gradDirOps (fubGradOps .single o) big level) level dir dt st).1.ctx = none := by
        have hb : (if st.count dir > 0 then (gradDirOps (fubGradOps .single o) big level).applyBc dir none else none) = none := by split <;> rfl
        have hp : (gradDirOps (fubGradOps .single o) big level).preSplit dt dir st.shared none = none := rfl
        simp only [splitOp, h, hb, hp]
        by_cases hlt : minAll ((gradDirOps (fubGradOps .single o) big level).localDt none dir) (gradDirOps (fubGradOps .single o) big level).ranks < dt
        · rw [if_pos hlt]
        · rw [if_neg hlt]; rfl
      generalize splitOp (gradDirOps (fubGradOps .single o) big level) level dir dt st = q at this
      obtain ⟨st', _ | e⟩ := q
      · exact ih st' this
      · exact this
  have h1 : (splitOp (gradDirOps (fubGradOps .single o) big level) level dir dt ⟨some m, fun _ => 0, 0⟩).1.ctx = none := by
    simp only [splitOp, gt_iff_lt, lt_self_iff_false, if_false]
    have hp : (gradDirOps (fubGradOps .single o) big level).preSplit dt dir 0 (some m) = none := by
      simp [gradDirOps, gradPreSplit, fubGradOps, passesPreSplit, h2]
    rw [hp]
    by_cases hlt : minAll ((gradDirOps (fubGradOps .single o) big level).localDt none dir) (gradDirOps (fubGradOps .single o) big level).ranks < dt
    · rw [if_pos hlt]
    · rw [if_neg hlt]; rfl
  unfold runDirSteps
  generalize splitOp (gradDirOps (fubGradOps .single o) big level) level dir dt ⟨some m, fun _ => 0, 0⟩ = q at h1
  obtain ⟨st', _ | e⟩ := q
  · exact hnone rest st' h1
  · exact h1

/-- **C196, false for coupled blocks.** The contexts of coupled blocks do not pass the call on: in any dimension the first split step of a fresh run reads gradients that were never allocated, unless
the step was too large. -/
theorem gradient_blocks_undefined (c : GradContext) (hc : c ≠ .single) (o : GradOps K S G R) (big : K) (level : Nat) (m : GradMem S G R) (hm : m.grads = none) (dir : Int) (dt : K)
    (hdt : dt ≤ minAll (o.stable level (m.lev level) dir) o.ranks) :
    (splitOp (gradDirOps (fubGradOps c o) big level) level dir dt ⟨some m, fun _ => 0, 0⟩).1.ctx = none := by
  have hf : passesPreSplit c = false := by cases c <;> simp_all [passesPreSplit]
  have hp : (gradDirOps (fubGradOps c o) big level).preSplit dt dir 0 (some m) = some m := by
    simp [gradDirOps, gradPreSplit, fubGradOps, hf]
  have hl : minAll ((gradDirOps (fubGradOps c o) big level).localDt (some m) dir) (gradDirOps (fubGradOps c o) big level).ranks =
      minAll (o.stable level (m.lev level) dir) o.ranks := rfl
  simp only [splitOp, gt_iff_lt, lt_self_iff_false, if_false, hp, hl, not_lt.mpr hdt]
  simp [gradDirOps, gradFluxes, hm]

/-- **C196, false for a type-erased Strang splitting in three dimensions.** It makes ten split steps; the reference states are renewed after three of them, so the second group uses direction
`d 1` twice and never the first, and the last group is a single step. -/
theorem gradient_erased_groups (o : GradOps K S G R) (big : K) (level : Nat) (h3 : o.dim = 3) (m : GradMem S G R) (cycle sub : Int) (dt : K) :
    let p := fubGradOps .single o
    let dirs := makeSplitDirections 3 cycle sub
    let d := fun i : Nat => dirs.getD i 0
    let h := 1 / 2 * dt
    let q := 1 / 2 * (1 / 2 * dt)
    levelOutcome level (advanceNonRecursively (gradDirOps p big level) strangSplit 3 level cycle sub dt (some m)) =
      some (idealSweeps p level [[(d 0, h), (d 1, q), (d 2, q)], [(d 2, q), (d 1, q), (d 1, q)], [(d 2, q), (d 2, q), (d 1, q)], [(d 0, h)]] [] (m.lev level)) := by
  intro p dirs d h q
  have hp : p.dim = 3 := h3
  have hps : p.slots = 3 := h3
  have hdirs : makeSplitDirections 3 cycle sub = [d 0, d 1, d 2] := rfl
  have hg := (gradient_sweeps p big level rfl (by omega) (by omega) [[(d 0, h), (d 1, q), (d 2, q)], [(d 2, q), (d 1, q), (d 1, q)], [(d 2, q), (d 2, q), (d 1, q)]]
    (by simp [hp]) [(d 0, h)] (by simp [hp]) m).1
  have e : ∀ (T : Type) (w : DirOps K T) (st : SplitState T), advanceRec strangSplit ([d 0, d 1, d 2].map (splitOp w level)) dt st =
      runDirSteps w level [(d 0, h), (d 1, q), (d 2, q), (d 2, q), (d 1, q), (d 1, q), (d 2, q), (d 2, q), (d 1, q), (d 0, h)] st := by
    intro T w st
    simp only [List.map_cons, List.map_nil, advanceRec, strangSplit, runDirSteps, h, q]
    rcases splitOp w level (d 0) (1 / 2 * dt) st with ⟨s, _ | e⟩ <;> simp only [andThen]
    rcases splitOp w level (d 1) (1 / 2 * (1 / 2 * dt)) s with ⟨s, _ | e⟩ <;> simp only
    rcases splitOp w level (d 2) (1 / 2 * (1 / 2 * dt)) s with ⟨s, _ | e⟩ <;> simp only
    rcases splitOp w level (d 2) (1 / 2 * (1 / 2 * dt)) s with ⟨s, _ | e⟩ <;> simp only
    rcases splitOp w level (d 1) (1 / 2 * (1 / 2 * dt)) s with ⟨s, _ | e⟩ <;> simp only
    rcases splitOp w level (d 1) (1 / 2 * (1 / 2 * dt)) s with ⟨s, _ | e⟩ <;> simp only
    rcases splitOp w level (d 2) (1 / 2 * (1 / 2 * dt)) s with ⟨s, _ | e⟩ <;> simp only
    rcases splitOp w level (d 2) (1 / 2 * (1 / 2 * dt)) s with ⟨s, _ | e⟩ <;> simp only
    rcases splitOp w level (d 1) (1 / 2 * (1 / 2 * dt)) s with ⟨s, _ | e⟩ <;> simp only
    rcases splitOp w level (d 0) (1 / 2 * dt) s with ⟨s, _ | e⟩ <;> rfl
  simp only [advanceNonRecursively, hdirs, e]
  exact hg

end

/-- A run with numbers: the state is a number, its gradient is twice the state, reference states are the sum. -/
def exGradOps (dim slots : Nat) : GradOps ℚ ℚ ℚ ℚ where
  dim := dim
  slots := slots
  forwards := true
  ranks := 1
  grad := fun _ s => 2 * s
  walls := fun _ s g => s + g
  bc := fun _ _ s => s + 100
  stable := fun _ s _ p => 50 + s + (p : ℚ)
  advance := fun _ dt dir g r s => s + dt * (g + r) + (dir : ℚ)

/-- A fresh memory. -/
def exGradMem : GradMem ℚ ℚ ℚ := ⟨fun l => (l : ℚ), none, fun _ => none⟩

/-- Two sweeps of Strang splitting in two dimensions with an array that is long enough, undefined behaviour with the array of the code, and with three dimensions. -/
example : levelOutcome 1 (advanceNonRecursively (gradDirOps (exGradOps 2 3) 1000 1) strangSplit 2 1 0 0 2 (some exGradMem)) = some (2865, none) ∧
    levelOutcome 1 (advanceNonRecursively (gradDirOps (fubGradOps .single (exGradOps 2 3)) 1000 1) strangSplit 2 1 0 0 2 (some exGradMem)) = none ∧
    (levelOutcome 1 (advanceNonRecursively (gradDirOps (fubGradOps .single (exGradOps 3 0)) 1000 1) godunovSplit 3 1 0 0 2 (some exGradMem))).isSome ∧
    levelOutcome 1 (advanceNonRecursively (gradDirOps (fubGradOps .multiBlock2 (exGradOps 3 0)) 1000 1) godunovSplit 3 1 0 0 2 (some exGradMem)) = none := by
  decide +kernel

end Fub
