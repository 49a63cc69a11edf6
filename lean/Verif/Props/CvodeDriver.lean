import Verif.Spec.CvodeDriver
import Mathlib.Tactic.Ring
import Mathlib.Tactic.Linarith
import Mathlib.Tactic.NormNum

/-!
# C206: integration with the CVODE solver
-/

namespace Fub
variable {K : Type*} [Field K] [LinearOrder K] [IsStrictOrderedRing K]

/-- What the driver hands to the library for a vector of the right size: exactly the vector of the caller, with positive tolerances. -/
theorem copyFront_full (src dst : List K) (h : dst.length ≤ src.length) : copyFront src dst = src := by
  unfold copyFront
  rw [List.drop_eq_nil_of_le h, List.append_nil]

/-- **C206** Without an observer the vector of the caller holds the solution at `t0 + dt`, and nothing is observed. -/
theorem cvode_normal (kernel : CvodeKernel K) (o : CvodeObject K) (y0 : List K) (t0 dt : K) (fuel : ℕ) (sol : K → List K) (h : K)
    (hsize : o.y.length = y0.length) (htol : o.abstol.length = y0.length) (hlen : (sol (t0 + dt)).length = y0.length)
    (hk : CvodeFollows (kernel t0 (t0 + dt) y0 (y0.map fun yi => max (|yi| / 10 ^ 10) (1 / 10 ^ 8)) o.hasRoot) t0 (t0 + dt) sol h) :
    cvodeIntegrate kernel o y0 t0 dt false fuel = .done (sol (t0 + dt)) [] := by
  have ht : y0.map cvodeAbsTol = y0.map fun yi => max (|yi| / 10 ^ 10) (1 / 10 ^ 8) := by
    refine List.map_congr_left fun yi _ => ?_
    simp only [cvodeAbsTol, cvodeRelTol]
    rw [one_div_mul_eq_div]
  have hn : ¬ o.y.length < y0.length := by omega
  unfold cvodeIntegrate
  simp only [hn, if_false, Bool.false_eq_true]
  rw [copyFront_full _ _ (by omega), copyFront_full _ _ (by simp [htol]), ht, hk.normal.2.2, ← hlen, List.take_length]

/-- The loop from call `k` on, up to the first call whose time is at or behind the end. -/
theorem cvodeLoop_spec (run : CvodeRun K) (tend : K) (m N : ℕ) (hN : tend ≤ (run.step N).t) : ∀ (d k : ℕ) (t : K) (y : List K) (calls : List (List K × K)) (fuel : ℕ),
    k + d = N → t < tend → (∀ j, k ≤ j → j < N → (run.step j).t < tend) → d + 2 ≤ fuel →
    cvodeLoop run tend m fuel k t y calls =
      .done ((run.step N).y.take m) (calls ++ (List.range' k (d + 1)).map fun j => ((run.step j).y.take m, (run.step j).t)) := by
  intro d
  induction d with
  | zero =>
    intro k t y calls fuel hk ht _ hf
    obtain rfl : k = N := by omega
    obtain ⟨f, rfl⟩ : ∃ f, fuel = f + 2 := ⟨fuel - 2, by omega⟩
    have : ¬ (run.step k).t < tend := not_lt.2 hN
    simp only [cvodeLoop, ht, if_true, this, if_false]
    simp [List.range']
  | succ d ih =>
    intro k t y calls fuel hk ht hall hf
    obtain ⟨f, rfl⟩ : ∃ f, fuel = f + 1 := ⟨fuel - 1, by omega⟩
    simp only [cvodeLoop, ht, if_true]
    rw [ih (k + 1) _ _ _ f (by omega) (hall k le_rfl (by omega)) (fun j h1 h2 => hall j (by omega) h2) (by omega)]
    rw [List.range'_succ, List.map_cons, List.append_assoc]
    rfl

/-- **C206** With an observer, as long as the steps of the library succeed, the call ends; the observer sees every internal step exactly once, in order, with the solution at
that time; only the last of these times reaches the end of the interval; and the vector of the caller holds the solution at that last time. -/
theorem cvode_observed (kernel : CvodeKernel K) (o : CvodeObject K) (y0 : List K) (t0 dt : K) (sol : K → List K) (h : K) (hh : 0 < h) (hdt : 0 < dt)
    (hsize : o.y.length = y0.length) (htol : o.abstol.length = y0.length) (hlen : ∀ t, (sol t).length = y0.length)
    (M : ℕ) (hM : dt ≤ (M + 1) * h)
    (hk : CvodeFollows (kernel t0 (t0 + dt) y0 (y0.map fun yi => max (|yi| / 10 ^ 10) (1 / 10 ^ 8)) o.hasRoot) t0 (t0 + dt) sol h) :
    ∃ times : List K, times ≠ [] ∧ times.length ≤ M + 1 ∧ (∀ t ∈ times.dropLast, t0 < t ∧ t < t0 + dt) ∧ times.Pairwise (· < ·) ∧
      ∃ last, times.getLast? = some last ∧ t0 + dt ≤ last ∧
        ∀ fuel, times.length < fuel → cvodeIntegrate kernel o y0 t0 dt true fuel = .done (sol last) (times.map fun t => (sol t, t)) := by
  have ht : y0.map cvodeAbsTol = y0.map fun yi => max (|yi| / 10 ^ 10) (1 / 10 ^ 8) := by
    refine List.map_congr_left fun yi _ => ?_
    simp only [cvodeAbsTol, cvodeRelTol]
    rw [one_div_mul_eq_div]
  have hn : ¬ o.y.length < y0.length := by omega
  generalize hr : kernel t0 (t0 + dt) y0 (y0.map fun yi => max (|yi| / 10 ^ 10) (1 / 10 ^ 8)) o.hasRoot = run at hk
  have hgrow : ∀ k : ℕ, t0 + (k + 1) * h ≤ (run.step k).t := by
    intro k
    induction k with
    | zero => have := hk.first; simpa using this
    | succ k ih => have := hk.advance k; push_cast; linarith
  have hmono : ∀ i j, i < j → (run.step i).t < (run.step j).t := by
    intro i j hij
    induction j with
    | zero => omega
    | succ j ih =>
      have h1 := hk.advance j
      rcases Nat.lt_succ_iff_lt_or_eq.1 hij with h2 | rfl
      · have := ih h2; linarith
      · linarith
  have hex : ∃ N, t0 + dt ≤ (run.step N).t := ⟨M, by have := hgrow M; linarith⟩
  classical
  have hNspec := Nat.find_spec hex
  have hNmin : ∀ j, j < Nat.find hex → (run.step j).t < t0 + dt := fun j hj => not_le.1 (Nat.find_min hex hj)
  have hNM : Nat.find hex ≤ M := Nat.find_min' hex (by have := hgrow M; linarith)
  generalize Nat.find hex = N at hNspec hNmin hNM
  refine ⟨(List.range (N + 1)).map fun j => (run.step j).t, by simp, by simpa using hNM, ?_, ?_, (run.step N).t, by simp [List.range_succ], hNspec, ?_⟩
  · rw [List.range_succ, List.map_append, List.map_cons, List.map_nil, List.dropLast_concat]
    intro t htm
    obtain ⟨j, hj, rfl⟩ := List.mem_map.1 htm
    have hj' := List.mem_range.1 hj
    refine ⟨?_, hNmin j hj'⟩
    have h1 := hgrow j
    have h2 : 0 < ((j : K) + 1) * h := by positivity
    linarith
  · rw [List.pairwise_map]
    exact List.pairwise_lt_range.imp fun hij => hmono _ _ hij
  · intro fuel hf
    simp only [List.length_map, List.length_range] at hf
    unfold cvodeIntegrate
    simp only [hn, if_false, if_true]
    rw [copyFront_full _ _ (by omega), copyFront_full _ _ (by simp [htol]), ht, hr,
      cvodeLoop_spec run (t0 + dt) y0.length N hNspec N 0 t0 y0 [] fuel (by omega) (by linarith) (fun j _ hj => hNmin j hj) (by omega)]
    have htake : ∀ j, (run.step j).y.take y0.length = sol (run.step j).t := fun j => by
      rw [hk.stepValue, ← hlen (run.step j).t, List.take_length]
    rw [htake, List.nil_append, List.map_map, List.range_eq_range']
    congr 1
    exact List.map_congr_left fun j _ => by rw [Function.comp, htake]

/-- **C206** For an interval of length zero (or less) an observed call takes no step and leaves the vector as it is. -/
theorem cvode_no_step (kernel : CvodeKernel K) (o : CvodeObject K) (y0 : List K) (t0 dt : K) (hdt : dt ≤ 0) (hsize : y0.length ≤ o.y.length) (fuel : ℕ) :
    cvodeIntegrate kernel o y0 t0 dt true (fuel + 1) = .done y0 [] := by
  have hn : ¬ o.y.length < y0.length := by omega
  have ht : ¬ t0 < t0 + dt := by linarith
  unfold cvodeIntegrate
  simp only [hn, if_false, if_true, cvodeLoop, ht]
  simp [copyFront]

/-- **C206** The return codes of the library are not looked at: two libraries that differ in nothing but the return codes give the same outcome. A failure, or a root that stops the
integration before its end, is returned like a success. -/
theorem cvode_flags_ignored (kernel kernel' : CvodeKernel K)
    (hn : ∀ t0 tend y tol root, (kernel t0 tend y tol root).normal.y = (kernel' t0 tend y tol root).normal.y)
    (hs : ∀ t0 tend y tol root k, ((kernel t0 tend y tol root).step k).y = ((kernel' t0 tend y tol root).step k).y ∧
      ((kernel t0 tend y tol root).step k).t = ((kernel' t0 tend y tol root).step k).t)
    (o : CvodeObject K) (y0 : List K) (t0 dt : K) (feedback : Bool) (fuel : ℕ) :
    cvodeIntegrate kernel o y0 t0 dt feedback fuel = cvodeIntegrate kernel' o y0 t0 dt feedback fuel := by
  have key : ∀ (run run' : CvodeRun K) (tend : K) (m : ℕ), (∀ k, (run.step k).y = (run'.step k).y ∧ (run.step k).t = (run'.step k).t) →
      ∀ (fuel k : ℕ) (t : K) (y : List K) (calls : List (List K × K)), cvodeLoop run tend m fuel k t y calls = cvodeLoop run' tend m fuel k t y calls := by
    intro run run' tend m h fuel
    induction fuel with
    | zero => intros; rfl
    | succ fuel ih =>
      intro k t y calls
      simp only [cvodeLoop, (h k).1, (h k).2, ih]
  unfold cvodeIntegrate
  simp only [hn, key _ _ (t0 + dt) y0.length (hs t0 (t0 + dt) (copyFront y0 o.y) (copyFront (y0.map cvodeAbsTol) o.abstol) o.hasRoot)]

/-- **C206** If the library fails at a time before the end and does not get any further, an observed call never returns. -/
theorem cvode_hangs (kernel : CvodeKernel K) (o : CvodeObject K) (y0 : List K) (t0 dt : K) (hdt : 0 < dt) (hsize : y0.length ≤ o.y.length)
    (hstuck : ∀ tol root k y, ((kernel t0 (t0 + dt) y tol root).step k).t < t0 + dt) (fuel : ℕ) :
    cvodeIntegrate kernel o y0 t0 dt true fuel = .running := by
  have hn : ¬ o.y.length < y0.length := by omega
  have key : ∀ (run : CvodeRun K) (m : ℕ), (∀ k, (run.step k).t < t0 + dt) → ∀ (fuel k : ℕ) (t : K) (y : List K) (calls : List (List K × K)), t < t0 + dt →
      cvodeLoop run (t0 + dt) m fuel k t y calls = .running := by
    intro run m h fuel
    induction fuel with
    | zero => intros; rfl
    | succ fuel ih =>
      intro k t y calls ht
      simp only [cvodeLoop, ht, if_true]
      exact ih _ _ _ _ (h k)
  unfold cvodeIntegrate
  simp only [hn, if_false, if_true]
  exact key _ _ (fun k => hstuck _ _ k _) _ _ _ _ _ (by linarith)

/-- **C206** A vector that is longer than the vectors of the solver is copied behind their end. A shorter one is completed by what the last call left in the solver. -/
theorem cvode_sizes (kernel : CvodeKernel K) (o : CvodeObject K) (y0 : List K) (t0 dt : K) (feedback : Bool) (fuel : ℕ) :
    (o.y.length < y0.length → cvodeIntegrate kernel o y0 t0 dt feedback fuel = .outOfBounds) ∧
    (y0.length ≤ o.y.length → ∃ tol, cvodeIntegrate kernel o y0 t0 dt false fuel =
      .done ((kernel t0 (t0 + dt) (y0 ++ o.y.drop y0.length) tol o.hasRoot).normal.y.take y0.length) []) := by
  constructor
  · intro h
    unfold cvodeIntegrate
    simp only [h, if_true]
  · intro h
    have hn : ¬ o.y.length < y0.length := by omega
    unfold cvodeIntegrate
    simp only [hn, if_false, Bool.false_eq_true, copyFront]
    exact ⟨_, rfl⟩

/-- **C206** A clone has vectors of the same size but lost the root function. -/
theorem cvode_clone (o : CvodeObject K) (junk : ℕ → K) :
    (cvodeClone o junk).y.length = o.y.length ∧ (cvodeClone o junk).abstol.length = o.y.length ∧ (cvodeClone o junk).hasRoot = false := by
  simp [cvodeClone]

/-- The library for `y' = 1` with internal steps of length `2/3`. -/
def cvodeUniform : CvodeKernel ℚ := fun t0 tend y _ _ =>
  ⟨⟨0, tend, y.map fun v => v + (tend - t0)⟩, fun k => ⟨0, t0 + 2 / 3 * (k + 1), y.map fun v => v + 2 / 3 * (k + 1)⟩⟩

/-- The promise of the library holds for it. -/
theorem cvodeUniform_follows (t0 tend : ℚ) (y tol : List ℚ) (root : Bool) :
    CvodeFollows (cvodeUniform t0 tend y tol root) t0 tend (fun t => y.map fun v => v + (t - t0)) (2 / 3) where
  normal := ⟨rfl, rfl, rfl⟩
  stepFlag _ := rfl
  stepValue k := by simp only [cvodeUniform]; congr 1; funext v; ring
  first := by simp [cvodeUniform]
  advance k := by simp only [cvodeUniform]; push_cast; linarith

/-- **C206** An observer changes the result. For `y' = 1` on an interval of length one the plain call returns `y0 + 1`, the observed one the value at time `4/3`: the last step goes
beyond the end of the interval and nothing interpolates back. -/
theorem cvode_observer_overshoots : ∃ (kernel : CvodeKernel ℚ) (sol : ℚ → List ℚ), CvodeFollows (kernel 0 (0 + 1) [5] ([5].map fun yi => max (|yi| / 10 ^ 10) (1 / 10 ^ 8)) false) 0 (0 + 1) sol (2 / 3) ∧
    ∀ fuel, cvodeIntegrate kernel ⟨[0], [0], false⟩ [5] 0 1 false fuel = .done [6] [] ∧
      cvodeIntegrate kernel ⟨[0], [0], false⟩ [5] 0 1 true (fuel + 3) = .done [19 / 3] [([17 / 3], 2 / 3), ([19 / 3], 4 / 3)] := by
  refine ⟨cvodeUniform, _, cvodeUniform_follows _ _ _ _ _, fun fuel => ⟨?_, ?_⟩⟩
  · simp only [cvodeIntegrate, cvodeUniform, copyFront]; norm_num
  · simp only [cvodeIntegrate, cvodeUniform, copyFront, cvodeLoop]; norm_num

/-- The hypotheses of `cvode_observed` and `cvode_normal` hold for it. -/
example : ∃ times : List ℚ, times ≠ [] ∧ times.length ≤ 1 + 1 ∧ (∀ t ∈ times.dropLast, (0 : ℚ) < t ∧ t < 0 + 1) ∧ times.Pairwise (· < ·) ∧
    ∃ last, times.getLast? = some last ∧ 0 + 1 ≤ last ∧ ∀ fuel, times.length < fuel →
      cvodeIntegrate cvodeUniform ⟨[0], [0], false⟩ [5] 0 1 true fuel = .done ([5].map fun v => v + (last - 0)) (times.map fun t => ([5].map fun v => v + (t - 0), t)) :=
  cvode_observed cvodeUniform ⟨[0], [0], false⟩ [5] 0 1 (fun t => [5].map fun v => v + (t - 0)) (2 / 3) (by norm_num) (by norm_num) rfl rfl (fun _ => rfl) 1 (by norm_num) (cvodeUniform_follows _ _ _ _ _)

/-- A library that fails at once: the plain call returns the old vector as if it were the result, the observed one never returns. -/
example (fuel : ℕ) : cvodeIntegrate (K := ℚ) (fun t0 _ y _ _ => ⟨⟨-4, t0, y⟩, fun _ => ⟨-4, t0, y⟩⟩) ⟨[0], [0], false⟩ [5] 0 1 false fuel = .done [5] [] ∧
    cvodeIntegrate (K := ℚ) (fun t0 _ y _ _ => ⟨⟨-4, t0, y⟩, fun _ => ⟨-4, t0, y⟩⟩) ⟨[0], [0], false⟩ [5] 0 1 true fuel = .running :=
  ⟨by simp [cvodeIntegrate, copyFront], cvode_hangs _ _ _ _ _ (by norm_num) (by simp) (by intros; norm_num) _⟩

end Fub
