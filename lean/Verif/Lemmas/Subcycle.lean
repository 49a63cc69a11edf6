import Verif.Spec.Subcycle
import Verif.Lemmas.Splitting
import Mathlib.Algebra.BigOperators.Intervals
import Mathlib.Tactic.FieldSimp

namespace Fub

section
variable {K S : Type} [Field K] [LinearOrder K]

omit [LinearOrder K] in
theorem scaleErr_idem (ratio : Nat → Nat) (e : StepErr K) : scaleErr ratio (scaleErr ratio e) = scaleErr ratio e := by
  simp [scaleErr, totalRatio]

omit [LinearOrder K] in
theorem scaleRes_idem (ratio : Nat → Nat) (r : S × Option (StepErr K)) :
    scaleRes ratio (scaleRes ratio r) = scaleRes ratio r := by
  obtain ⟨s, _ | e⟩ := r <;> simp [scaleRes, scaleErr_idem]

omit [LinearOrder K] in
theorem scaleRes_andThen (ratio : Nat → Nat) (r : S × Option (StepErr K)) (f : S → S × Option (StepErr K)) :
    scaleRes ratio (andThen r f) = andThen (scaleRes ratio r) (fun s => scaleRes ratio (f s)) := by
  obtain ⟨s, _ | e⟩ := r <;> rfl

omit [Field K] [LinearOrder K] in
theorem runEvents_cons (B : LevelSys K S) (e : LevelEv K) (es : List (LevelEv K)) (s : S) :
    runEvents B (e :: es) s = andThen (e.exec B s) (fun s => runEvents B es s) := by
  simp only [runEvents]
  rcases e.exec B s with ⟨s', _ | err⟩ <;> rfl

omit [Field K] [LinearOrder K] in
theorem runEvents_append (B : LevelSys K S) (es fs : List (LevelEv K)) (s : S) :
    runEvents B (es ++ fs) s = andThen (runEvents B es s) (fun s => runEvents B fs s) := by
  induction es generalizing s with
  | nil => rfl
  | cons e es ih => simp only [List.cons_append, runEvents_cons, andThen_assoc, ih]

omit [Field K] [LinearOrder K] in
theorem exec_exists {B : LevelSys K S} {M : Nat} (hB : B.RegridOnlyFiner M) (e : LevelEv K) (m : Nat)
    (he : ∀ l dt sub, e = .pre l dt sub → m ≤ l) (s : S) (k : Nat) (hk : k ≤ m) :
    B.levelExists (e.exec B s).1 k = B.levelExists s k := by
  cases e with
  | pre l dt sub => exact hB.pre l dt sub s k (hk.trans (he _ _ _ rfl))
  | reset f c => exact hB.reset ..
  | adv l dt sub => exact hB.adv ..
  | corr f c dt => exact hB.corr ..
  | coarsen f c => exact hB.coarsen ..
  | complete l dt => exact hB.complete ..
  | copyBack l => exact hB.copyBack ..
  | fillSingle l => exact hB.fillSingle ..
  | fillTwo f c => exact hB.fillTwo ..
  | post l dt sub => exact hB.post ..

omit [Field K] [LinearOrder K] in
theorem runEvents_exists {B : LevelSys K S} {M : Nat} (hB : B.RegridOnlyFiner M) (es : List (LevelEv K)) (m : Nat)
    (he : ∀ l dt sub, LevelEv.pre l dt sub ∈ es → m ≤ l) (s : S) (k : Nat) (hk : k ≤ m) :
    B.levelExists (runEvents B es s).1 k = B.levelExists s k := by
  induction es generalizing s with
  | nil => rfl
  | cons e es ih =>
    have h1 := exec_exists hB e m (fun l dt sub h => he l dt sub (by simp [h])) s k hk
    rw [runEvents_cons]
    rcases h : e.exec B s with ⟨s', _ | err⟩
    · rw [h] at h1
      simp only [andThen]
      rw [ih (fun l dt sub h => he l dt sub (by simp [h])), h1]
    · rw [h] at h1; simpa [andThen] using h1

omit [LinearOrder K] in
theorem levelTrace_pre {ratio : Nat → Nat} {ok : Nat → Bool → Prop} {m : Nat} {dt : K} {sub : Nat × Nat}
    {es : List (LevelEv K)} (h : LevelTrace ratio ok m dt sub es) :
    ∀ l d u, LevelEv.pre l d u ∈ es → m ≤ l := by
  induction h with
  | finest l dt sub _ => intro l' d u hm; simp at hm; omega
  | refined l dt sub f _ _ ih =>
    intro l' d u hm
    simp only [List.mem_append, List.mem_cons, List.mem_flatMap, List.mem_range, reduceCtorEq, List.not_mem_nil,
      or_false, LevelEv.pre.injEq] at hm
    rcases hm with hm | ⟨r, hr, hm⟩
    · omega
    · have := ih r hr l' d u hm; omega

/-- The step with only the finest-level shape, used for steps that are never executed after a failure. -/
theorem exists_trace (B : LevelSys K S) (M : Nat) (hB : B.RegridOnlyFiner M) (ok : Nat → Bool → Prop)
    (hok : ∀ s k, ok k (B.levelExists s k)) (s : S) (fuel : Nat) : ∀ (l : Nat) (dt : K) (sub : Nat × Nat), M ≤ l + fuel →
    ∃ es, LevelTrace B.ratio ok l dt sub es := by
  induction fuel with
  | zero =>
    intro l dt sub hl
    refine ⟨_, .finest l dt sub ?_⟩
    have := hok s (l + 1)
    rwa [hB.bounded s (l + 1) (by omega)] at this
  | succ fuel ih =>
    intro l dt sub hl
    cases hx : B.levelExists s (l + 1) with
    | false => exact ⟨_, .finest l dt sub (by rw [← hx]; exact hok _ _)⟩
    | true =>
      choose f hf using fun r => ih (l + 1) (dt / (B.ratio (l + 1) : K)) (r, B.ratio (l + 1)) (by omega)
      exact ⟨_, .refined l dt sub f (by rw [← hx]; exact hok _ _) (fun r _ => hf r)⟩

theorem forSub_trace (B : LevelSys K S) (M : Nat) (hB : B.RegridOnlyFiner M) (ok : Nat → Bool → Prop)
    (hok : ∀ s k, ok k (B.levelExists s k)) (fuel l : Nat) (dt : K) (n : Nat) (hfuel : M ≤ l + fuel)
    (ih : ∀ r s, ∃ es, LevelTrace B.ratio ok l dt (r, n) es ∧
      advanceLevel B fuel l dt (r, n) s = scaleRes B.ratio (runEvents B es s)) :
    ∀ (m r : Nat) (s : S), ∃ f : Nat → List (LevelEv K),
      (∀ i, LevelTrace B.ratio ok l dt (i, n) (f i)) ∧
      scaleRes B.ratio (forSub (fun r s => advanceLevel B fuel l dt (r, n) s) m r s) =
        scaleRes B.ratio (runEvents B ((List.range' r m).flatMap f) s) := by
  intro m
  induction m with
  | zero =>
    intro r s
    choose f hf using fun i => exists_trace (K := K) B M hB ok hok s fuel l dt (i, n) hfuel
    exact ⟨f, hf, rfl⟩
  | succ m ihm =>
    intro r s
    obtain ⟨es, hes, heq⟩ := ih r s
    obtain ⟨f, hf, hfeq⟩ := ihm (r + 1) (runEvents B es s).1
    refine ⟨fun i => if i = r then es else f i, ?_, ?_⟩
    · intro i; dsimp only; split
      · subst_vars; exact hes
      · exact hf i
    · have hcongr : (List.range' (r + 1) m).flatMap (fun i => if i = r then es else f i)
          = (List.range' (r + 1) m).flatMap f := by
        apply List.flatMap_congr
        intro i hi
        simp only [List.mem_range'_1] at hi
        rw [if_neg (by omega)]
      rw [List.range'_succ, List.flatMap_cons, hcongr, if_pos rfl, runEvents_append, forSub, heq, scaleRes_andThen,
        scaleRes_andThen, scaleRes_idem]
      rcases h : runEvents B es s with ⟨s', _ | e⟩
      · rw [h] at hfeq
        simpa [andThen, scaleRes] using hfeq
      · rfl

theorem advanceLevel_trace (B : LevelSys K S) (M : Nat) (hB : B.RegridOnlyFiner M) (ok : Nat → Bool → Prop)
    (hok : ∀ s k, ok k (B.levelExists s k)) : ∀ (fuel l : Nat) (dt : K) (sub : Nat × Nat) (s : S), M ≤ l + fuel →
    0 < fuel → ∃ es, LevelTrace B.ratio ok l dt sub es ∧
      advanceLevel B fuel l dt sub s = scaleRes B.ratio (runEvents B es s) := by
  intro fuel
  induction fuel with
  | zero => intro l dt sub s _ h; omega
  | succ fuel ih =>
    intro l dt sub s hM _
    have hok' := hok (B.pre l dt sub s) (l + 1)
    cases hx : B.levelExists (B.pre l dt sub s) (l + 1) with
    | false =>
      rw [hx] at hok'
      refine ⟨_, .finest l dt sub hok', ?_⟩
      have h1 := hB.adv l dt sub (B.pre l dt sub s) (l + 1)
      simp only [advanceLevel, hx, runEvents_cons, LevelEv.exec, andThen, Bool.false_eq_true, if_false, scaleRes]
      rw [hx] at h1
      rcases h : B.adv l dt sub (B.pre l dt sub s) with ⟨s1, _ | e⟩
      · rw [h] at h1
        simp only at h1
        simp only [Option.map_none, h1, Bool.false_eq_true, if_false]
        rcases B.post l dt sub (B.copyBack l s1) with ⟨s2, _ | e⟩ <;> rfl
      · rfl
    | true =>
      rw [hx] at hok'
      have hlt : l + 1 < M := by
        by_contra hc
        have := hB.bounded (B.pre l dt sub s) (l + 1) (by omega)
        rw [hx] at this; cases this
      have hx1 : B.levelExists (B.reset (l + 1) l (B.pre l dt sub s)) (l + 1) = true := by rw [hB.reset, hx]
      obtain ⟨f, hf, hfeq⟩ := forSub_trace B M hB ok hok fuel (l + 1) (dt / (B.ratio (l + 1) : K)) (B.ratio (l + 1))
        (by omega) (fun r s => ih (l + 1) _ (r, B.ratio (l + 1)) s (by omega) (by omega))
        (B.ratio (l + 1)) 0 (B.reset (l + 1) l (B.pre l dt sub s))
      refine ⟨_, .refined l dt sub f hok' (fun r _ => hf r), ?_⟩
      have hx2 := runEvents_exists hB ((List.range' 0 (B.ratio (l + 1))).flatMap f) (l + 1) (by
        intro l' d u hm
        simp only [List.mem_flatMap] at hm
        obtain ⟨r, _, hm⟩ := hm
        exact levelTrace_pre (hf r) _ _ _ hm) (B.reset (l + 1) l (B.pre l dt sub s)) (l + 1) le_rfl
      simp only [advanceLevel, hx, if_true, List.cons_append, List.nil_append, runEvents_cons, runEvents_append,
        LevelEv.exec, andThen_assoc]
      rw [hfeq, ← List.range_eq_range']
      rw [← List.range_eq_range'] at hx2
      simp only [andThen]
      rcases h : runEvents B ((List.range (B.ratio (l + 1))).flatMap f) (B.reset (l + 1) l (B.pre l dt sub s))
        with ⟨s1, _ | e⟩
      · rw [h, hx1] at hx2
        simp only at hx2
        simp only [scaleRes, Option.map_none]
        have h3 := hB.adv l dt sub s1 (l + 1)
        rw [hx2] at h3
        simp only [h3, if_true, hB.corr]
        rcases h' : B.adv l dt sub s1 with ⟨s2, _ | e⟩
        · simp only [Option.map_none]
          rcases B.post l dt sub (B.copyBack l (B.complete l dt (B.coarsen (l + 1) l (B.corr (l + 1) l dt s2))))
            with ⟨s3, _ | e⟩ <;> rfl
        · rfl
      · rfl

/-! ### Combinatorics of traces -/

omit [LinearOrder K] in
theorem advDts_append (k : Nat) (es fs : List (LevelEv K)) : advDts k (es ++ fs) = advDts k es ++ advDts k fs := by
  simp [advDts]

omit [LinearOrder K] in
theorem advDts_flatMap (k : Nat) (l : List Nat) (f : Nat → List (LevelEv K)) :
    advDts k (l.flatMap f) = l.flatMap (fun i => advDts k (f i)) := by
  simp [advDts, List.filterMap_flatMap]

omit [LinearOrder K] in
theorem pairTrace_append (k : Nat) (es fs : List (LevelEv K)) :
    pairTrace k (es ++ fs) = pairTrace k es ++ pairTrace k fs := by
  simp [pairTrace]

omit [LinearOrder K] in
theorem pairTrace_flatMap (k : Nat) (l : List Nat) (f : Nat → List (LevelEv K)) :
    pairTrace k (l.flatMap f) = l.flatMap (fun i => pairTrace k (f i)) := by
  simp [pairTrace, List.filterMap_flatMap]

theorem flatMap_const_replicate {α : Type} (n m : Nat) (x : α) :
    (List.range n).flatMap (fun _ => List.replicate m x) = List.replicate (n * m) x := by
  induction n with
  | zero => simp
  | succ n ih => simp [List.range_succ, List.flatMap_append, ih, Nat.succ_mul]

theorem flatMap_const_flatten {α : Type} (n m : Nat) (x : List α) :
    (List.range n).flatMap (fun _ => (List.replicate m x).flatten) = (List.replicate (n * m) x).flatten := by
  induction n with
  | zero => simp
  | succ n ih => 
    rw [List.range_succ, List.flatMap_append, ih, Nat.succ_mul, List.replicate_add, List.flatten_append]
    simp

theorem prod_Ioc_head (ratio : Nat → Nat) (l k : Nat) (h : l < k) :
    ∏ j ∈ Finset.Ioc l k, ratio j = ratio (l + 1) * ∏ j ∈ Finset.Ioc (l + 1) k, ratio j := by
  rw [← Finset.prod_Ioc_consecutive ratio (Nat.le_succ l) h]
  congr 1
  simp

theorem totalRatio_eq (ratio : Nat → Nat) (k : Nat) : totalRatio ratio k = ∏ j ∈ Finset.Ioc 0 k, ratio j := by
  induction k with
  | zero => rfl
  | succ k ih => rw [totalRatio, ih, Finset.prod_Ioc_succ_top (Nat.zero_le k), mul_comm]

omit [LinearOrder K] in
theorem advDts_coarser {ratio : Nat → Nat} {ok : Nat → Bool → Prop} {m : Nat} {dt : K} {sub : Nat × Nat}
    {es : List (LevelEv K)} (h : LevelTrace ratio ok m dt sub es) (k : Nat) (hk : k < m) : advDts k es = [] := by
  induction h with
  | finest l dt sub _ => 
    have : l ≠ k := by omega
    simp [advDts, this]
  | refined l dt sub f _ _ ih =>
    have : l ≠ k := by omega
    rw [advDts_append, advDts_append, advDts_flatMap]
    have h0 : (List.range (ratio (l + 1))).flatMap (fun i => advDts k (f i)) = [] := by
      simp only [List.flatMap_eq_nil_iff, List.mem_range]
      exact fun r hr => ih r hr (by omega)
    rw [h0]
    simp [advDts, this]

omit [LinearOrder K] in
theorem advDts_self {ratio : Nat → Nat} {ok : Nat → Bool → Prop} {m : Nat} {dt : K} {sub : Nat × Nat}
    {es : List (LevelEv K)} (h : LevelTrace ratio ok m dt sub es) : advDts m es = [dt] := by
  cases h with
  | finest l dt sub _ => simp [advDts]
  | refined l dt sub f _ hf =>
    rw [advDts_append, advDts_append, advDts_flatMap]
    have h0 : (List.range (ratio (m + 1))).flatMap (fun i => advDts m (f i)) = [] := by
      simp only [List.flatMap_eq_nil_iff, List.mem_range]
      exact fun r hr => advDts_coarser (hf r hr) m (by omega)
    rw [h0]
    simp [advDts]

omit [LinearOrder K] in
theorem advDts_mem {ratio : Nat → Nat} {ok : Nat → Bool → Prop} {m : Nat} {dt : K} {sub : Nat × Nat}
    {es : List (LevelEv K)} (h : LevelTrace ratio ok m dt sub es) (k : Nat) (hk : m ≤ k) :
    ∀ d ∈ advDts k es, d = dt / ((∏ j ∈ Finset.Ioc m k, ratio j : Nat) : K) := by
  induction h with
  | finest l dt sub _ =>
    intro d hd
    by_cases hlk : l = k
    · subst hlk; simp [advDts] at hd; simp [hd]
    · simp [advDts, hlk] at hd
  | refined l dt sub f h1 h2 ih =>
    intro d hd
    by_cases hlk : l = k
    · subst hlk
      have := advDts_self (.refined l dt sub f h1 h2)
      rw [this] at hd
      simp at hd; simp [hd]
    · rw [advDts_append, advDts_append, advDts_flatMap] at hd
      simp only [List.mem_append, List.mem_flatMap, List.mem_range] at hd
      rcases hd with (hd | ⟨r, hr, hd⟩) | hd
      · simp [advDts] at hd
      · rw [ih r hr (by omega) d hd, prod_Ioc_head ratio l k (by omega), div_div]
        push_cast; rfl
      · simp [advDts, hlk] at hd

omit [LinearOrder K] in
theorem advDts_exact {ratio : Nat → Nat} {L : Nat} {m : Nat} {dt : K} {sub : Nat × Nat}
    {es : List (LevelEv K)} (h : LevelTrace ratio (exactly L) m dt sub es) (k : Nat) (hk : m ≤ k) (hL : k < L) :
    advDts k es = List.replicate (∏ j ∈ Finset.Ioc m k, ratio j)
      (dt / ((∏ j ∈ Finset.Ioc m k, ratio j : Nat) : K)) := by
  induction h with
  | finest l dt sub hx =>
    simp only [exactly] at hx
    have : l = k := by
      have : ¬ (l + 1 < L) := by simpa using hx
      omega
    subst this
    simp [advDts]
  | refined l dt sub f h1 h2 ih =>
    by_cases hlk : l = k
    · subst hlk
      rw [advDts_self (.refined l dt sub f h1 h2)]
      simp
    · rw [advDts_append, advDts_append, advDts_flatMap]
      have h0 : (List.range (ratio (l + 1))).flatMap (fun i => advDts k (f i)) =
          (List.range (ratio (l + 1))).flatMap (fun _ => List.replicate (∏ j ∈ Finset.Ioc (l + 1) k, ratio j)
            (dt / ((∏ j ∈ Finset.Ioc l k, ratio j : Nat) : K))) := by
        apply List.flatMap_congr
        intro r hr
        rw [ih r (List.mem_range.mp hr) (by omega), prod_Ioc_head ratio l k (by omega), div_div]
        push_cast; rfl
      rw [h0, flatMap_const_replicate, prod_Ioc_head ratio l k (by omega)]
      simp [advDts, hlk]

omit [LinearOrder K] in
theorem pairTrace_finer {ratio : Nat → Nat} {ok : Nat → Bool → Prop} {m : Nat} {dt : K} {sub : Nat × Nat}
    {es : List (LevelEv K)} (h : LevelTrace ratio ok m dt sub es) (k : Nat) (hk : k + 1 < m) : pairTrace k es = [] := by
  induction h with
  | finest l dt sub _ =>
    have h1 : l ≠ k := by omega
    have h2 : l ≠ k + 1 := by omega
    simp [pairTrace, List.filterMap_cons, LevelEv.pair, h1, h2]
  | refined l dt sub f _ _ ih =>
    have h1 : l ≠ k := by omega
    have h2 : l ≠ k + 1 := by omega
    rw [pairTrace_append, pairTrace_append, pairTrace_flatMap]
    have h0 : (List.range (ratio (l + 1))).flatMap (fun i => pairTrace k (f i)) = [] := by
      simp only [List.flatMap_eq_nil_iff, List.mem_range]
      exact fun r hr => ih r hr (by omega)
    rw [h0]
    simp [pairTrace, List.filterMap_cons, LevelEv.pair, h1, h2]

omit [LinearOrder K] in
theorem pairTrace_fine {ratio : Nat → Nat} {ok : Nat → Bool → Prop} {k : Nat} {dt : K} {sub : Nat × Nat}
    {es : List (LevelEv K)} (h : LevelTrace ratio ok (k + 1) dt sub es) : pairTrace k es = [.advFine] := by
  cases h with
  | finest l dt sub _ => simp [pairTrace, List.filterMap_cons, LevelEv.pair]
  | refined l dt sub f _ hf =>
    rw [pairTrace_append, pairTrace_append, pairTrace_flatMap]
    have h0 : (List.range (ratio (k + 1 + 1))).flatMap (fun i => pairTrace k (f i)) = [] := by
      simp only [List.flatMap_eq_nil_iff, List.mem_range]
      exact fun r hr => pairTrace_finer (hf r hr) k (by omega)
    rw [h0]
    simp [pairTrace, List.filterMap_cons, LevelEv.pair]

omit [LinearOrder K] in
theorem pairTrace_exact {ratio : Nat → Nat} {L : Nat} {m : Nat} {dt : K} {sub : Nat × Nat}
    {es : List (LevelEv K)} (h : LevelTrace ratio (exactly L) m dt sub es) (k : Nat) (hk : m ≤ k) (hL : k + 1 < L) :
    pairTrace k es = (List.replicate (∏ j ∈ Finset.Ioc m k, ratio j)
      ([PairEv.reset] ++ List.replicate (ratio (k + 1)) .advFine ++ [.advCoarse, .corr, .coarsen])).flatten := by
  induction h with
  | finest l dt sub hx =>
    simp only [exactly] at hx
    have : ¬ (l + 1 < L) := by simpa using hx
    omega
  | refined l dt sub f h1 h2 ih =>
    rw [pairTrace_append, pairTrace_append, pairTrace_flatMap]
    by_cases hlk : l = k
    · subst hlk
      have h0 : (List.range (ratio (l + 1))).flatMap (fun i => pairTrace l (f i)) =
          (List.range (ratio (l + 1))).flatMap (fun _ => List.replicate 1 PairEv.advFine) := by
        apply List.flatMap_congr
        intro r hr
        exact pairTrace_fine (h2 r (List.mem_range.mp hr))
      rw [h0, flatMap_const_replicate]
      simp [pairTrace, List.filterMap_cons, LevelEv.pair]
    · have h0 : (List.range (ratio (l + 1))).flatMap (fun i => pairTrace k (f i)) =
          (List.range (ratio (l + 1))).flatMap (fun _ => (List.replicate (∏ j ∈ Finset.Ioc (l + 1) k, ratio j)
      ([PairEv.reset] ++ List.replicate (ratio (k + 1)) .advFine ++ [.advCoarse, .corr, .coarsen])).flatten) := by
        apply List.flatMap_congr
        intro r hr
        rw [ih r (List.mem_range.mp hr) (by omega)]
      rw [h0, flatMap_const_flatten, prod_Ioc_head ratio l k (by omega)]
      have h2 : l ≠ k + 1 := by omega
      simp [pairTrace, List.filterMap_cons, LevelEv.pair, hlk, h2]

end

end Fub
