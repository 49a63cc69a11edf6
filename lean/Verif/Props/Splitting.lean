import Verif.Lemmas.Splitting
import Mathlib.Tactic.Ring
import Mathlib.Tactic.FieldSimp
import Mathlib.Tactic.NormNum
import Mathlib.Tactic.LinearCombination
import Mathlib.Data.Rat.Cast.Defs
import Mathlib.Algebra.Order.Ring.Rat
import Mathlib.Algebra.BigOperators.Group.List.Lemmas

/-!
# Properties of the splitting methods (C09, C10)
-/

namespace Fub

section
variable {K S E : Type} [Field K]

/-! ### C09 -/

/-- **C09 (Godunov).** For any number of operators there is a schedule - every operator once, for `dt`, in order - that
Godunov splitting executes, stopping at the first failure. -/
theorem godunov_schedule (N : Nat) (dt : K) :
    ∃ sched : List (Nat × K), sched = (List.range N).map (fun i => (i, dt)) ∧
      (∀ i < N, totalTime i sched = dt) ∧
      ∀ (S E : Type) (ops : List (Op K S E)), ops.length = N → ∀ s,
        advanceRec godunovSplit ops dt s = runSchedule ops sched s := by
  have hs : ∀ n i, patSched (K := K) godunovPat n i dt = (List.range' i n).map (fun i => (i, dt)) := by
    intro n
    induction n with
    | zero => intro i; rfl
    | succ n ih =>
      intro i
      cases n with
      | zero => rfl
      | succ n =>
        have := ih (i + 1)
        simp only [patSched, godunovPat, List.flatMap_cons, List.flatMap_nil, if_true, one_mul,
          Bool.false_eq_true, if_false, List.append_nil] at this ⊢
        rw [this]
        simp [List.range'_succ]
  refine ⟨_, rfl, ?_, ?_⟩
  · intro i hi
    have := patSched_total (K := K) godunovPat (by simp [godunovPat]) (by simp [godunovPat]) N 0 dt i (by omega)
    rw [hs] at this
    rwa [List.range_eq_range']
  · rintro S E ops rfl s
    have := advanceRec_eq_schedule (S := S) (E := E) godunovSplit godunovPat (fun dt a b s => by
      simp [godunovSplit, runPattern, godunovPat, andThen_none]) [] ops dt s
    rw [hs] at this
    rw [this, List.range_eq_range']
    rfl

/-- **C09 (Strang).** For any number of operators there is a palindromic schedule in which every operator is advanced
by exactly `dt` in total, and Strang splitting executes it, stopping at the first failure. -/
theorem strang_schedule [NeZero (2 : K)] (N : Nat) (dt : K) :
    ∃ sched : List (Nat × K), sched.reverse = sched ∧ (∀ q ∈ sched, q.1 < N) ∧
      (∀ i < N, totalTime i sched = dt) ∧
      ∀ (S E : Type) (ops : List (Op K S E)), ops.length = N → ∀ s,
        advanceRec strangSplit ops dt s = runSchedule ops sched s := by
  have h2 : (1 / 2 : K) + 1 / 2 = 1 := by have := NeZero.ne (2 : K); field_simp; norm_num
  refine ⟨patSched strangPat N 0 dt, patSched_palindrome _ (by simp [strangPat]) _ _ _, ?_, ?_, ?_⟩
  · intro q hq; have := patSched_index _ _ _ _ q hq; omega
  · intro i hi
    exact patSched_total strangPat (by simpa [strangPat] using h2) (by simpa [strangPat] using h2) N 0 dt i (by omega)
  · rintro S E ops rfl s
    exact advanceRec_eq_schedule (S := S) (E := E) strangSplit strangPat (fun dt a b s => by
      simp [strangSplit, runPattern, strangPat, andThen_none]) [] ops dt s

/-- **C09 (lumped Strang).** The same for lumped Strang splitting. -/
theorem lumped_schedule [NeZero (2 : K)] (N : Nat) (dt : K) :
    ∃ sched : List (Nat × K), sched.reverse = sched ∧ (∀ q ∈ sched, q.1 < N) ∧
      (∀ i < N, totalTime i sched = dt) ∧
      ∀ (S E : Type) (ops : List (Op K S E)), ops.length = N → ∀ s,
        advanceRec lumpedSplit ops dt s = runSchedule ops sched s := by
  have h2 : (1 / 2 : K) + 1 / 2 = 1 := by have := NeZero.ne (2 : K); field_simp; norm_num
  refine ⟨patSched lumpedPat N 0 dt, patSched_palindrome _ (by simp [lumpedPat]) _ _ _, ?_, ?_, ?_⟩
  · intro q hq; have := patSched_index _ _ _ _ q hq; omega
  · intro i hi
    exact patSched_total lumpedPat (by simpa [lumpedPat] using h2) (by simp [lumpedPat]) N 0 dt i (by omega)
  · rintro S E ops rfl s
    exact advanceRec_eq_schedule (S := S) (E := E) lumpedSplit lumpedPat (fun dt a b s => by
      simp [lumpedSplit, runPattern, lumpedPat, andThen_none]) [] ops dt s

/-- **C09 (Strang with three operators).** The three-operator overload executes a1 a2 a3 a3 a2 a1, each for `dt/2`. -/
theorem strang3_schedule [NeZero (2 : K)] (dt : K) :
    ∃ sched : List (Nat × K), sched.reverse = sched ∧ sched.map Prod.fst = [0, 1, 2, 2, 1, 0] ∧
      (∀ i < 3, totalTime i sched = dt) ∧
      ∀ (S E : Type) (a1 a2 a3 : Op K S E) s, strangSplit3 dt a1 a2 a3 s = runSchedule [a1, a2, a3] sched s := by
  have h2 : (1 / 2 * dt : K) + 1 / 2 * dt = dt := by have := NeZero.ne (2 : K); field_simp; ring
  refine ⟨[(0, 1 / 2 * dt), (1, 1 / 2 * dt), (2, 1 / 2 * dt), (2, 1 / 2 * dt), (1, 1 / 2 * dt), (0, 1 / 2 * dt)],
    rfl, rfl, ?_, ?_⟩
  · intro i hi
    have : i = 0 ∨ i = 1 ∨ i = 2 := by omega
    rcases this with rfl | rfl | rfl <;> simpa [totalTime] using h2
  · intro S E a1 a2 a3 s
    simp only [strangSplit3, runSchedule, andThen, List.getElem?_cons_zero, List.getElem?_cons_succ]
    rcases a1 (1 / 2 * dt) s with ⟨s, _ | e⟩ <;> try rfl
    simp only
    rcases a2 (1 / 2 * dt) s with ⟨s, _ | e⟩ <;> try rfl
    simp only
    rcases a3 (1 / 2 * dt) s with ⟨s, _ | e⟩ <;> try rfl
    simp only
    rcases a3 (1 / 2 * dt) s with ⟨s, _ | e⟩ <;> try rfl
    simp only
    rcases a2 (1 / 2 * dt) s with ⟨s, _ | e⟩ <;> try rfl
    simp only
    rcases a1 (1 / 2 * dt) s with ⟨s, _ | e⟩ <;> rfl

/-- **C09 (type-erased methods).** With three operators a type-erased splitting method runs a schedule that advances each of them by exactly `dt` in
total, whichever of the three methods it holds. -/
theorem anySplit3_schedule [NeZero (2 : K)] (dt : K) :
    (∃ sched : List (Nat × K), (∀ i < 3, totalTime i sched = dt) ∧ ∀ (S E : Type) (a1 a2 a3 : Op K S E) s,
      anySplit3 godunovSplit dt a1 a2 a3 s = runSchedule [a1, a2, a3] sched s) ∧
    (∃ sched : List (Nat × K), (∀ i < 3, totalTime i sched = dt) ∧ ∀ (S E : Type) (a1 a2 a3 : Op K S E) s,
      anySplit3 strangSplit dt a1 a2 a3 s = runSchedule [a1, a2, a3] sched s) ∧
    ∃ sched : List (Nat × K), (∀ i < 3, totalTime i sched = dt) ∧ ∀ (S E : Type) (a1 a2 a3 : Op K S E) s,
      anySplit3 lumpedSplit dt a1 a2 a3 s = runSchedule [a1, a2, a3] sched s := by
  obtain ⟨s1, -, h1, k1⟩ := godunov_schedule (K := K) 3 dt
  obtain ⟨s2, -, -, h2, k2⟩ := strang_schedule (K := K) 3 dt
  obtain ⟨s3, -, -, h3, k3⟩ := lumped_schedule (K := K) 3 dt
  exact ⟨⟨s1, h1, fun S E a b c s => k1 S E [a, b, c] rfl s⟩, ⟨s2, h2, fun S E a b c s => k2 S E [a, b, c] rfl s⟩,
    ⟨s3, h3, fun S E a b c s => k3 S E [a, b, c] rfl s⟩⟩

end

/-- An operator that appends its number and step size to a log and fails when its number is in `bad`. -/
def logOp (bad : List Nat) (i : Nat) : Op ℚ (List (Nat × ℚ)) Nat := fun dt log =>
  (log ++ [(i, dt)], if i ∈ bad then some i else none)

/-- Three operators under Strang splitting; and a failure of operator 1 stops the schedule. -/
example : (advanceRec strangSplit [logOp [] 0, logOp [] 1] 1 []) =
      ([(0, 1/2), (1, 1/2), (1, 1/2), (0, 1/2)], none) ∧
    (advanceRec strangSplit [logOp [1] 0, logOp [1] 1] 1 []) = ([(0, 1/2), (1, 1/2)], some 1) := by
  decide +kernel

/-- Wrapping Strang splitting in `AnySplitMethod` changes the three-operator method: operators are applied with smaller steps
and a different order than the three-operator overload of the wrapped method.  (Both are consistent, see
`strang_schedule` and `strang3_schedule`.) -/
theorem anySplit_changes_strang3 :
    anySplit3 strangSplit 1 (logOp [] 0) (logOp [] 1) (logOp [] 2) [] ≠
    strangSplit3 1 (logOp [] 0) (logOp [] 1) (logOp [] 2) [] := by decide +kernel

/-! ### C10 -/

/-- **C10 (permutation).** For every rank and all non-negative cycle and subcycle numbers every direction
`0, ..., rank-1` occurs exactly once. -/
theorem splitDirections_perm (rank : Nat) (cycle sub : Int) (hc : 0 ≤ cycle) (hs : 0 ≤ sub) :
    (makeSplitDirections rank cycle sub).Perm ((List.range rank).map (fun (i : Nat) => (i : Int))) := by
  have hmod : ((cycle.tmod 2) + sub).tmod 2 = 0 ∨ ((cycle.tmod 2) + sub).tmod 2 = 1 := by
    rw [Int.tmod_eq_emod_of_nonneg hc, Int.tmod_eq_emod_of_nonneg (by omega)]; omega
  unfold makeSplitDirections
  dsimp only
  rcases hmod with h | h <;> rw [h]
  · simp
  · have : (List.range rank).map (fun (i : Nat) => (if (1 : Int) = 0 then (1 : Int) else 0) * (i : Int) + 1 * ((rank : Int) - 1 - i))
        = ((List.range rank).map (fun (i : Nat) => (i : Int))).reverse := by
      apply List.ext_getElem
      · simp
      · intro n h1 h2
        simp at h1 h2 ⊢
        omega
    rw [this]
    exact List.reverse_perm _

/-- **C10 (alternation).** The order for the next cycle is the reverse order; likewise for the next subcycle. -/
theorem splitDirections_alternate (rank : Nat) (cycle sub : Int) (hc : 0 ≤ cycle) (hs : 0 ≤ sub) :
    makeSplitDirections rank (cycle + 1) sub = (makeSplitDirections rank cycle sub).reverse ∧
    makeSplitDirections rank cycle (sub + 1) = (makeSplitDirections rank cycle sub).reverse := by
  have key : ∀ a b : Int, (a = 0 ∧ b = 1) ∨ (a = 1 ∧ b = 0) →
      (List.range rank).map (fun (i : Nat) => (if b = 0 then (1 : Int) else 0) * (i : Int) + b * ((rank : Int) - 1 - (i : Int))) =
      ((List.range rank).map (fun (i : Nat) => (if a = 0 then (1 : Int) else 0) * (i : Int) + a * ((rank : Int) - 1 - (i : Int)))).reverse := by
    rintro a b (⟨rfl, rfl⟩ | ⟨rfl, rfl⟩) <;>
    · apply List.ext_getElem
      · simp
      · intro n h1 h2
        simp at h1 h2 ⊢
        omega
  constructor
  · apply key
    rw [Int.tmod_eq_emod_of_nonneg hc, Int.tmod_eq_emod_of_nonneg (a := cycle + 1) (by omega),
      Int.tmod_eq_emod_of_nonneg (by omega), Int.tmod_eq_emod_of_nonneg (by omega)]
    omega
  · apply key
    rw [Int.tmod_eq_emod_of_nonneg hc,
      Int.tmod_eq_emod_of_nonneg (by omega), Int.tmod_eq_emod_of_nonneg (by omega)]
    omega

example : makeSplitDirections 3 0 0 = [0, 1, 2] ∧ makeSplitDirections 3 4 1 = [2, 1, 0] := by decide

end Fub
