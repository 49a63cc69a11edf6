import Verif.Lemmas.Subcycle
import Mathlib.Tactic.Linarith
import Mathlib.Algebra.Order.Ring.Rat
import Mathlib.Algebra.Order.Field.Rat
import Mathlib.Algebra.Order.BigOperators.Ring.Finset

/-!
# Properties of the time stepping over refinement levels (C11, C12)
-/

namespace Fub

section
variable {K S : Type} [Field K] [LinearOrder K]

/-! ### C11 -/

/-- **C11 (shape, with regridding).** Whatever the level operations do and however `PreAdvanceLevel` changes the finer
levels, one coarse step executes a schedule of the shape `LevelTrace` - each step of a refined level is preceded by `ratio`
steps of the finer level of size `dt / ratio`, see its definition - and stops at the first failing operation. The
reported error is the first error with its level set to 0 and its step size multiplied with the product of the refinement ratios up to
its level. -/
theorem subcycle_schedule (B : LevelSys K S) (M : Nat) (hM : 0 < M) (hB : B.RegridOnlyFiner M) (ok : Nat → Bool → Prop)
    (hok : ∀ s k, ok k (B.levelExists s k)) (dt : K) (s : S) :
    ∃ es, LevelTrace B.ratio ok 0 dt (0, 1) es ∧
      (advanceLevel B M 0 dt (0, 1) s).1 = (runEvents B es s).1 ∧
      (advanceLevel B M 0 dt (0, 1) s).2 = (runEvents B es s).2.map
        (fun e => { dt := e.dt * ((∏ j ∈ Finset.Ioc 0 e.level, B.ratio j : Nat) : K), level := 0 }) := by
  obtain ⟨es, h1, h2⟩ := advanceLevel_trace B M hB ok hok M 0 dt (0, 1) s (by omega) hM
  refine ⟨es, h1, by rw [h2]; rfl, ?_⟩
  rw [h2]
  simp only [scaleRes, scaleErr]
  congr 1
  funext e
  rw [scaleErr, totalRatio_eq]

/-- **C11 (total time and order).** When the hierarchy has exactly `L` levels during a step by `dt`: level `k` is advanced
exactly `r₁ ⋯ r_k` times, each time by `dt / (r₁ ⋯ r_k)`, hence by `dt` in total; and between each pair of levels the order is
always: clear the register, take all fine steps, take the coarse step, apply the correction, average down. -/
theorem subcycle_total_time (B : LevelSys K S) (M L : Nat) (hL : 0 < L) (hLM : L ≤ M) (hB : B.RegridOnlyFiner M)
    (hex : ∀ s k, B.levelExists s k = decide (k < L)) (dt : K) (s : S) :
    ∃ es, (advanceLevel B M 0 dt (0, 1) s).1 = (runEvents B es s).1 ∧
      ((advanceLevel B M 0 dt (0, 1) s).2 = none ↔ (runEvents B es s).2 = none) ∧
      (∀ k < L, advDts k es = List.replicate (∏ j ∈ Finset.Ioc 0 k, B.ratio j)
          (dt / ((∏ j ∈ Finset.Ioc 0 k, B.ratio j : Nat) : K))) ∧
      (∀ k < L, (∀ j, j ≤ k → 0 < j → (B.ratio j : K) ≠ 0) → (advDts k es).sum = dt) ∧
      (∀ k, k + 1 < L → pairTrace k es = (List.replicate (∏ j ∈ Finset.Ioc 0 k, B.ratio j)
          ([PairEv.reset] ++ List.replicate (B.ratio (k + 1)) .advFine ++ [.advCoarse, .corr, .coarsen])).flatten) := by
  obtain ⟨es, h1, h2, h3⟩ := subcycle_schedule B M (by omega) hB (exactly L) (fun s k => hex s k) dt s
  refine ⟨es, h2, ?_, fun k hk => advDts_exact h1 k (Nat.zero_le k) hk, ?_, fun k hk => pairTrace_exact h1 k (Nat.zero_le k) hk⟩
  · rw [h3]; simp
  · intro k hk hr
    rw [advDts_exact h1 k (Nat.zero_le k) hk, List.sum_replicate, nsmul_eq_mul]
    have : ((∏ j ∈ Finset.Ioc 0 k, B.ratio j : Nat) : K) ≠ 0 := by
      push_cast
      rw [Finset.prod_ne_zero_iff]
      intro j hj
      rw [Finset.mem_Ioc] at hj
      exact hr j hj.2 hj.1
    field_simp

/-- **C11 (hierarchy step).** `AdvanceHierarchy` returns the result of the coarse step; after a successful step, and only then, it refills
ghost cells of all levels, when the cycle number is divisible by the frequency. A frequency of 0 is undefined behaviour
after every successful step. -/
theorem advanceHierarchy_spec (B : LevelSys K S) (M : Nat) (freq : Int) (dt : K) (s : S) :
    (∀ e, (advanceLevel B M 0 dt (0, 1) s).2 = some e →
      advanceHierarchy B M freq dt s = some (advanceLevel B M 0 dt (0, 1) s)) ∧
    ((advanceLevel B M 0 dt (0, 1) s).2 = none → freq = 0 → advanceHierarchy B M freq dt s = none) ∧
    ((advanceLevel B M 0 dt (0, 1) s).2 = none → freq ≠ 0 → ∃ s', advanceHierarchy B M freq dt s = some (s', none) ∧
      (¬ freq ∣ B.cycles (advanceLevel B M 0 dt (0, 1) s).1 → s' = (advanceLevel B M 0 dt (0, 1) s).1)) := by
  rcases h : advanceLevel B M 0 dt (0, 1) s with ⟨s1, _ | e⟩
  · simp only [advanceHierarchy, h, reduceCtorEq, false_implies, implies_true, true_and, forall_const]
    constructor
    · intro hf; rw [if_pos hf]
    · intro hf
      rw [if_neg hf]
      split
      · rename_i h0
        exact ⟨_, rfl, fun hd => absurd (Int.dvd_of_tmod_eq_zero h0) hd⟩
      · exact ⟨_, rfl, fun _ => rfl⟩
  · simp [advanceHierarchy, h]

theorem nsc_aux (B : LevelSys K S) (M L : Nat) (hB : B.RegridOnlyFiner M)
    (hex : ∀ s k, B.levelExists s k = decide (k < L)) (dt : K) : ∀ (n fuel l : Nat), l + n + 1 = L → n < fuel → ∀ s,
    nscAdvanceLevel B fuel l dt s = runEvents B (nscEvents dt n l) s := by
  intro n
  induction n with
  | zero =>
    intro fuel l hl hf s
    obtain ⟨fuel, rfl⟩ : ∃ f, fuel = f + 1 := ⟨fuel - 1, by omega⟩
    have h1 : ¬ (l + 1 < L) := by omega
    simp only [nscAdvanceLevel, nscEvents, hex, h1, decide_false, Bool.false_eq_true, if_false, runEvents_cons,
      LevelEv.exec, andThen, fillEv]
    rcases B.adv l dt (0, 1) (B.pre l dt (0, 1) s) with ⟨s1, _ | e⟩
    · by_cases hl0 : l = 0
      · simp only [hl0, if_true]
        rcases B.post 0 dt (0, 1) (B.fillSingle 0 (B.copyBack 0 s1)) with ⟨s2, _ | e⟩ <;> rfl
      · simp only [hl0, if_false]
        rcases B.post l dt (0, 1) (B.fillTwo l (l - 1) (B.copyBack l s1)) with ⟨s2, _ | e⟩ <;> rfl
    · rfl
  | succ n ih =>
    intro fuel l hl hf s
    obtain ⟨fuel, rfl⟩ : ∃ f, fuel = f + 1 := ⟨fuel - 1, by omega⟩
    have h1 : l + 1 < L := by omega
    simp only [nscAdvanceLevel, nscEvents, hex, h1, decide_true, if_true, runEvents_cons, runEvents_append,
      LevelEv.exec, andThen, List.cons_append, List.nil_append, fillEv]
    rw [ih fuel (l + 1) (by omega) (by omega)]
    rcases runEvents B (nscEvents dt n (l + 1)) (B.reset (l + 1) l (B.pre l dt (0, 1) s)) with ⟨s1, _ | e⟩
    · simp only
      rcases B.adv l dt (0, 1) s1 with ⟨s2, _ | e⟩
      · by_cases hl0 : l = 0
        · subst hl0
          simp only [if_true]
          rcases B.post 0 dt (0, 1) _ with ⟨s2, _ | e⟩ <;> rfl
        · simp only [hl0, if_false]
          rcases B.post l dt (0, 1) _ with ⟨s2, _ | e⟩ <;> rfl
      · rfl
    · rfl

omit [Field K] [LinearOrder K] in
theorem fillEv_adv (k l : Nat) (es : List (LevelEv K)) : advDts k (fillEv l :: es) = advDts k es := by
  unfold fillEv; split <;> rfl

omit [Field K] [LinearOrder K] in
theorem fillEv_pair (k l : Nat) (es : List (LevelEv K)) : pairTrace k (fillEv l :: es) = pairTrace k es := by
  unfold fillEv; split <;> rfl

omit [LinearOrder K] in
theorem nsc_advDts (dt : K) (k : Nat) : ∀ n l, advDts k (nscEvents dt n l) = if l ≤ k ∧ k ≤ l + n then [dt] else [] := by
  intro n
  induction n with
  | zero =>
    intro l
    have e : advDts k [LevelEv.pre l dt (0, 1), .adv l dt (0, 1), .copyBack l, fillEv l, .post l dt (0, 1)] =
        if l = k then [dt] else [] := by
      have := fillEv_adv k l [LevelEv.post l dt (0, 1)]
      simp only [advDts] at this
      simp only [advDts, List.filterMap_cons, this]
      split <;> simp_all
    rw [nscEvents, e]
    congr 1
    simp only [eq_iff_iff]; omega
  | succ n ih =>
    intro l
    have e : advDts k [LevelEv.adv l dt (0, 1), .corr (l + 1) l dt, .coarsen (l + 1) l, .complete l dt, .copyBack l,
       fillEv l, .post l dt (0, 1)] = if l = k then [dt] else [] := by
      have := fillEv_adv k l [LevelEv.post l dt (0, 1)]
      simp only [advDts] at this
      simp only [advDts, List.filterMap_cons, this]
      split <;> simp_all
    rw [nscEvents, advDts_append, advDts_append, ih, e]
    have e0 : advDts k [LevelEv.pre l dt (0, 1), .reset (l + 1) l] = [] := rfl
    rw [e0]
    by_cases h : l = k
    · have h1 : ¬ (l + 1 ≤ k ∧ k ≤ l + 1 + n) := by omega
      have h2 : l ≤ k ∧ k ≤ l + (n + 1) := by omega
      rw [if_neg h1, if_pos h2, if_pos h]; rfl
    · rw [if_neg h, List.append_nil, List.nil_append]
      congr 1
      simp only [eq_iff_iff]; omega

omit [LinearOrder K] in
theorem nsc_pairTrace (dt : K) (k : Nat) : ∀ n l,
    pairTrace k (nscEvents dt n l) =
      if l ≤ k ∧ k < l + n then [.reset, .advFine, .advCoarse, .corr, .coarsen]
      else if l = k + 1 then [.advFine] else if k = l + n then [.advCoarse] else [] := by
  intro n
  induction n with
  | zero =>
    intro l
    have e : pairTrace k [LevelEv.pre l dt (0, 1), .adv l dt (0, 1), .copyBack l, fillEv l, .post l dt (0, 1)] =
        if l = k + 1 then [.advFine] else if l = k then [.advCoarse] else [] := by
      have := fillEv_pair k l [LevelEv.post l dt (0, 1)]
      simp only [pairTrace] at this
      simp only [pairTrace, List.filterMap_cons, this, LevelEv.pair]
      by_cases h : l = k + 1
      · simp [h]
      · by_cases h' : l = k <;> simp [h, h']
    have : ¬ (l ≤ k ∧ k < l + 0) := by omega
    rw [if_neg this, nscEvents, e]
    simp only [Nat.add_zero, eq_comm (a := l) (b := k)]
  | succ n ih =>
    intro l
    rw [nscEvents, pairTrace_append, pairTrace_append, ih]
    have e1 : pairTrace (K := K) k [.pre l dt (0, 1), .reset (l + 1) l] = if l = k then [.reset] else [] := by
      by_cases h : l = k <;> simp [pairTrace, List.filterMap_cons, LevelEv.pair, h]
    have e2 : pairTrace (K := K) k [.adv l dt (0, 1), .corr (l + 1) l dt, .coarsen (l + 1) l, .complete l dt, .copyBack l,
       fillEv l, .post l dt (0, 1)] =
       if l = k + 1 then [.advFine] else if l = k then [.advCoarse, .corr, .coarsen] else [] := by
      have := fillEv_pair k l [LevelEv.post l dt (0, 1)]
      simp only [pairTrace] at this
      simp only [pairTrace, List.filterMap_cons, this, LevelEv.pair]
      by_cases h : l = k + 1
      · simp [h]
      · by_cases h' : l = k <;> simp [h, h']
    rw [e1, e2]
    by_cases h : l = k
    · have h1 : ¬ (l + 1 ≤ k ∧ k < l + 1 + n) := by omega
      have h2 : l ≤ k ∧ k < l + (n + 1) := by omega
      have h3 : l ≠ k + 1 := by omega
      have h4 : l + 1 = k + 1 := by omega
      rw [if_pos h, if_neg h1, if_pos h4, if_neg h3, if_pos h, if_pos h2]
      rfl
    · by_cases h' : l = k + 1
      · have h1 : ¬ (l + 1 ≤ k ∧ k < l + 1 + n) := by omega
        have h2 : ¬ (l ≤ k ∧ k < l + (n + 1)) := by omega
        have h3 : l + 1 ≠ k + 1 := by omega
        have h4 : k ≠ l + 1 + n := by omega
        rw [if_neg h, if_neg h1, if_neg h3, if_neg h4, if_pos h', if_neg h2, if_pos h']
        rfl
      · rw [if_neg h, if_neg h', if_neg h, List.nil_append, List.append_nil]
        have h3 : l + 1 ≠ k + 1 := by omega
        by_cases h'' : l + 1 ≤ k ∧ k < l + 1 + n
        · have h2 : l ≤ k ∧ k < l + (n + 1) := by omega
          rw [if_pos h'', if_pos h2]
        · have h2 : ¬ (l ≤ k ∧ k < l + (n + 1)) := by omega
          rw [if_neg h'', if_neg h2, if_neg h3, if_neg h', Nat.add_right_comm, Nat.add_assoc]

/-- **C11 (no subcycling).** The solver without subcycling executes one fixed schedule in which each level is advanced
exactly once, by `dt`, with the same order of the exchange operations; errors are passed on unchanged. -/
theorem noSubcycle_schedule (B : LevelSys K S) (M L : Nat) (hL : 0 < L) (hLM : L ≤ M) (hB : B.RegridOnlyFiner M)
    (hex : ∀ s k, B.levelExists s k = decide (k < L)) (dt : K) :
    ∃ es, (∀ s, nscAdvanceLevel B M 0 dt s = runEvents B es s) ∧ (∀ k < L, advDts k es = [dt]) ∧
      (∀ k, k + 1 < L → pairTrace k es = [.reset, .advFine, .advCoarse, .corr, .coarsen]) := by
  refine ⟨nscEvents dt (L - 1) 0, fun s => nsc_aux B M L hB hex dt (L - 1) M 0 (by omega) (by omega) s, ?_, ?_⟩
  · intro k hk
    rw [nsc_advDts, if_pos (by omega)]
  · intro k hk
    rw [nsc_pairTrace, if_pos (by omega)]

end

/-! ### C12 -/

section
variable {K S : Type} [Field K] [LinearOrder K] [IsStrictOrderedRing K]

omit [IsStrictOrderedRing K] in
theorem stableDtLoop_spec (B : LevelSys K S) (s : S) : ∀ (fuel l : Nat) (acc : K),
    stableDtLoop B s fuel l acc ≤ acc ∧
    (∀ k, l ≤ k → k < l + fuel → (∀ j, l ≤ j → j ≤ k → B.levelExists s j = true) →
      stableDtLoop B s fuel l acc ≤ (totalRatio B.ratio k : K) * B.stableDt s k) ∧
    (stableDtLoop B s fuel l acc = acc ∨ ∃ k, l ≤ k ∧ (∀ j, l ≤ j → j ≤ k → B.levelExists s j = true) ∧
      stableDtLoop B s fuel l acc = (totalRatio B.ratio k : K) * B.stableDt s k) := by
  intro fuel
  induction fuel with
  | zero => intro l acc; exact ⟨le_rfl, fun k h1 h2 => by omega, Or.inl rfl⟩
  | succ fuel ih =>
    intro l acc
    rw [stableDtLoop]
    by_cases hx : B.levelExists s l = true
    · rw [if_pos hx]
      obtain ⟨h1, h2, h3⟩ := ih (l + 1) (min acc ((totalRatio B.ratio l : K) * B.stableDt s l))
      refine ⟨h1.trans (min_le_left _ _), ?_, ?_⟩
      · intro k hlk hkf hall
        by_cases hkl : k = l
        · subst hkl; exact h1.trans (min_le_right _ _)
        · exact h2 k (by omega) (by omega) (fun j hj hj' => hall j (by omega) hj')
      · rcases h3 with h3 | ⟨k, hk, hall, h3⟩
        · rw [h3]
          rcases min_choice acc ((totalRatio B.ratio l : K) * B.stableDt s l) with h | h
          · exact Or.inl h
          · refine Or.inr ⟨l, le_rfl, ?_, h⟩
            intro j h1 h2
            have : j = l := by omega
            rwa [this]
        · refine Or.inr ⟨k, by omega, ?_, h3⟩
          intro j h1 h2
          by_cases hjl : j = l
          · rwa [hjl]
          · exact hall j (by omega) h2
    · rw [if_neg hx]
      refine ⟨le_rfl, ?_, Or.inl rfl⟩
      intro k hlk _ hall
      exact absurd (hall l le_rfl hlk) hx

/-- **C12 (estimate).** The estimate of the subcycling solver is the smallest of `r₁ ⋯ r_k · dt_k` over the existing levels `k`
(and of the largest number). -/
theorem computeStableDt_spec (B : LevelSys K S) (M L : Nat) (hLM : L ≤ M) (s : S)
    (hex : ∀ k, B.levelExists s k = decide (k < L)) (big : K) :
    (∀ k < L, computeStableDt B M big s ≤ ((∏ j ∈ Finset.Ioc 0 k, B.ratio j : Nat) : K) * B.stableDt s k) ∧
    computeStableDt B M big s ≤ big ∧
    (computeStableDt B M big s = big ∨
      ∃ k < L, computeStableDt B M big s = ((∏ j ∈ Finset.Ioc 0 k, B.ratio j : Nat) : K) * B.stableDt s k) := by
  obtain ⟨h1, h2, h3⟩ := stableDtLoop_spec B s M 0 big
  refine ⟨?_, h1, ?_⟩
  · intro k hk
    rw [← totalRatio_eq]
    exact h2 k (Nat.zero_le k) (by omega) (fun j _ hj => by rw [hex]; simp; omega)
  · rcases h3 with h3 | ⟨k, _, hall, h3⟩
    · exact Or.inl h3
    · refine Or.inr ⟨k, ?_, ?_⟩
      · have := hall k (Nat.zero_le k) le_rfl
        rw [hex] at this; simpa using this
      · rw [← totalRatio_eq]; exact h3

/-- **C12 (sub-steps respect the level limits).** If the coarse step size does not exceed the estimate, then no level is
advanced with a step larger than its own stable step size at the beginning of the step. -/
theorem substeps_stable (B : LevelSys K S) (M L : Nat) (hLM : L ≤ M) (s : S) (big : K)
    (hex : ∀ k, B.levelExists s k = decide (k < L)) (hr : ∀ j, 0 < B.ratio j)
    (dt : K) (hdt : dt ≤ computeStableDt B M big s) (ok : Nat → Bool → Prop)
    (es : List (LevelEv K)) (hes : LevelTrace B.ratio ok 0 dt (0, 1) es) :
    ∀ k < L, ∀ d ∈ advDts k es, d ≤ B.stableDt s k := by
  intro k hk d hd
  rw [advDts_mem hes k (Nat.zero_le k) d hd]
  have hpos : (0 : K) < ((∏ j ∈ Finset.Ioc 0 k, B.ratio j : Nat) : K) := by
    have : 0 < ∏ j ∈ Finset.Ioc 0 k, B.ratio j := Finset.prod_pos (fun j _ => hr j)
    exact_mod_cast this
  rw [div_le_iff₀ hpos, mul_comm]
  exact hdt.trans ((computeStableDt_spec B M L hLM s hex big).1 k hk)

/-- **C12 (error scaling).** If an operation of level `k` reports that only `e.dt` is stable, the coarse step size that
`AdvanceLevel` reports instead is the one for which level `k` is advanced with exactly `e.dt`. -/
theorem retry_uses_reported_dt (B : LevelSys K S) (M : Nat) (hM : 0 < M) (hB : B.RegridOnlyFiner M)
    (hr : ∀ j, 0 < B.ratio j) (dt : K) (s : S) (e' : StepErr K)
    (herr : (advanceLevel B M 0 dt (0, 1) s).2 = some e') :
    e'.level = 0 ∧ ∃ es e, LevelTrace B.ratio (fun _ _ => True) 0 dt (0, 1) es ∧ (runEvents B es s).2 = some e ∧
      ∀ (ok : Nat → Bool → Prop) fs, LevelTrace B.ratio ok 0 e'.dt (0, 1) fs → ∀ d ∈ advDts e.level fs, d = e.dt := by
  obtain ⟨es, h1, h2, h3⟩ := subcycle_schedule B M hM hB (fun _ _ => True) (fun _ _ => trivial) dt s
  rw [herr] at h3
  rcases h : (runEvents B es s).2 with _ | e
  · rw [h] at h3; cases h3
  · rw [h] at h3
    simp only [Option.map_some, Option.some.injEq] at h3
    subst h3
    refine ⟨rfl, es, e, h1, h, ?_⟩
    intro ok fs hfs d hd
    rw [advDts_mem hfs e.level (Nat.zero_le _) d hd]
    have hpos : ((∏ j ∈ Finset.Ioc 0 e.level, B.ratio j : Nat) : K) ≠ 0 := by
      have : 0 < ∏ j ∈ Finset.Ioc 0 e.level, B.ratio j := Finset.prod_pos (fun j _ => hr j)
      exact_mod_cast this.ne'
    simp only
    field_simp

omit [IsStrictOrderedRing K] in
theorem nscStableDtLoop_spec (B : LevelSys K S) (s : S) : ∀ (fuel l : Nat) (acc : K),
    nscStableDtLoop B s fuel l acc ≤ acc ∧
    (∀ k, l ≤ k → k < l + fuel → (∀ j, l ≤ j → j ≤ k → B.levelExists s j = true) →
      nscStableDtLoop B s fuel l acc ≤ B.stableDt s k) ∧
    (nscStableDtLoop B s fuel l acc = acc ∨ ∃ k, l ≤ k ∧ B.levelExists s k = true ∧
      nscStableDtLoop B s fuel l acc = B.stableDt s k) := by
  intro fuel
  induction fuel with
  | zero => intro l acc; exact ⟨le_rfl, fun k h1 h2 => by omega, Or.inl rfl⟩
  | succ fuel ih =>
    intro l acc
    rw [nscStableDtLoop]
    by_cases hx : B.levelExists s l = true
    · rw [if_pos hx]
      obtain ⟨h1, h2, h3⟩ := ih (l + 1) (min acc (B.stableDt s l))
      refine ⟨h1.trans (min_le_left _ _), ?_, ?_⟩
      · intro k hlk hkf hall
        by_cases hkl : k = l
        · subst hkl; exact h1.trans (min_le_right _ _)
        · exact h2 k (by omega) (by omega) (fun j hj hj' => hall j (by omega) hj')
      · rcases h3 with h3 | ⟨k, hk, hall, h3⟩
        · rw [h3]
          rcases min_choice acc (B.stableDt s l) with h | h
          · exact Or.inl h
          · exact Or.inr ⟨l, le_rfl, hx, h⟩
        · exact Or.inr ⟨k, by omega, hall, h3⟩
    · rw [if_neg hx]
      refine ⟨le_rfl, ?_, Or.inl rfl⟩
      intro k hlk _ hall
      exact absurd (hall l le_rfl hlk) hx

omit [IsStrictOrderedRing K] in
/-- **C12 (no subcycling).** Without subcycling the estimate is the smallest level estimate, and no level is advanced
with a larger step. -/
theorem noSubcycle_stable (B : LevelSys K S) (M L : Nat) (hLM : L ≤ M) (s : S)
    (hex : ∀ k, B.levelExists s k = decide (k < L)) (big : K) :
    (∀ k < L, nscComputeStableDt B M big s ≤ B.stableDt s k) ∧ nscComputeStableDt B M big s ≤ big ∧
    (nscComputeStableDt B M big s = big ∨ ∃ k < L, nscComputeStableDt B M big s = B.stableDt s k) := by
  obtain ⟨h1, h2, h3⟩ := nscStableDtLoop_spec B s M 0 big
  refine ⟨?_, h1, ?_⟩
  · intro k hk
    exact h2 k (Nat.zero_le k) (by omega) (fun j _ hj => by rw [hex]; simp; omega)
  · rcases h3 with h3 | ⟨k, _, hall, h3⟩
    · exact Or.inl h3
    · refine Or.inr ⟨k, ?_, h3⟩
      rw [hex] at hall; simpa using hall

end

/-! ### A concrete hierarchy

Three levels with ratios 2 and 3 whose operations are logged; level 2 fails when its step is larger than 1/10. -/

/-- A logging level integrator. -/
def demoSys : LevelSys ℚ (List (LevelEv ℚ)) where
  levelExists := fun _ l => decide (l < 3)
  ratio := fun l => if l = 1 then 2 else 3
  stableDt := fun _ l => if l = 2 then 1 / 10 else 1
  pre := fun l dt sub s => s ++ [.pre l dt sub]
  reset := fun f c s => s ++ [.reset f c]
  adv := fun l dt sub s => (s ++ [.adv l dt sub], if l = 2 ∧ (1 / 10 : ℚ) < dt then some ⟨1 / 10, 2⟩ else none)
  corr := fun f c dt s => s ++ [.corr f c dt]
  coarsen := fun f c s => s ++ [.coarsen f c]
  complete := fun l dt s => s ++ [.complete l dt]
  copyBack := fun l s => s ++ [.copyBack l]
  fillSingle := fun l s => s ++ [.fillSingle l]
  fillTwo := fun f c s => s ++ [.fillTwo f c]
  post := fun l dt sub s => (s ++ [.post l dt sub], none)
  cycles := fun _ => 1

/-- The hypotheses of `subcycle_schedule`, `subcycle_total_time`, ... hold for it. -/
theorem demoSys_ok : demoSys.RegridOnlyFiner 3 := by
  constructor <;> intros <;> simp [demoSys] <;> omega

/-- A step by 3/5 succeeds, level 2 takes 6 steps of 1/10; a step by 1 fails and 3/5 is reported. -/
example : (advanceLevel demoSys 3 0 (3 / 5) (0, 1) []).2 = none ∧
    advDts 2 (advanceLevel demoSys 3 0 (3 / 5) (0, 1) []).1 = List.replicate 6 (1 / 10) ∧
    advDts 1 (advanceLevel demoSys 3 0 (3 / 5) (0, 1) []).1 = [3 / 10, 3 / 10] ∧
    (advanceLevel demoSys 3 0 1 (0, 1) []).2 = some ⟨3 / 5, 0⟩ ∧
    computeStableDt demoSys 3 1000 [] = 3 / 5 ∧ nscComputeStableDt demoSys 3 1000 [] = 1 / 10 := by decide +kernel

end Fub
