import Verif.Lemmas.OmpLocal

/-!
# C134: values per thread do not depend on the schedule. C135: the mean value in a box
-/

namespace Fub

/-! ## C134 -/

/-- **C134.** A parallel loop is defined exactly if every body runs on a thread for which there is an
instance. -/
theorem ompLocal_defined_iff {T E : Type*} (f : T → E → T) (threads : ℕ) (value : T)
    (schedule : List (ℕ × E)) :
    (ompRun f (ompLocal threads value) schedule).isSome = true ↔ ∀ ev ∈ schedule, ev.1 < threads := by
  rw [Option.isSome_iff_exists]
  constructor
  · rintro ⟨inst', h⟩ ev hev
    simpa [ompLocal] using (ompRun_length f _ _ _ h).2 ev hev
  · intro h
    exact ompRun_total f _ _ (by simpa [ompLocal] using h)

/-- **C134.** The instance of a thread depends only on the bodies that this thread executed, in their
order: it is what a sequential loop over them gives, whatever the other threads do. -/
theorem ompLocal_threads_isolated {T E : Type*} (f : T → E → T) (threads : ℕ) (value : T)
    (schedule : List (ℕ × E)) (inst : List T)
    (h : ompRun f (ompLocal threads value) schedule = some inst) (t : ℕ) (ht : t < threads) :
    inst[t]? = some (((schedule.filter (fun ev => ev.1 == t)).map Prod.snd).foldl f value) := by
  have hlen : inst.length = threads := by
    rw [(ompRun_length f _ _ _ h).1]
    simp [ompLocal]
  have e := ompRun_getElem f schedule (ompLocal threads value) inst h t (by simpa [ompLocal] using ht)
    (by omega)
  rw [List.getElem?_eq_getElem (by omega), e]
  simp [ompLocal]

/-- **C134.** A sum over a parallel loop is the sum over all bodies plus one start value for every
thread; in particular neither the order of the bodies nor their distribution to threads matters. -/
theorem ompLocal_accumulate {T E : Type*} [AddCommMonoid T] (g : E → T) (threads : ℕ)
    (hthreads : 0 < threads) (value : T) (schedule : List (ℕ × E))
    (hsched : ∀ ev ∈ schedule, ev.1 < threads) :
    (ompRun (fun t e => t + g e) (ompLocal threads value) schedule).bind (ompAccumulate (· + ·)) =
      some (threads • value + (schedule.map (fun ev => g ev.2)).sum) := by
  obtain ⟨inst, h⟩ := ompRun_total (fun t e => t + g e) schedule (ompLocal threads value)
    (by simpa [ompLocal] using hsched)
  have hne : inst ≠ [] := by
    intro hn
    have := (ompRun_length _ _ _ _ h).1
    rw [hn] at this
    simp [ompLocal] at this
    omega
  rw [h, Option.bind_some, ompAccumulate_add _ hne, ompRun_sum g _ _ _ h]
  simp [ompLocal]

/-- **C134.** With a neutral start value the sum does not depend on the number of threads. -/
theorem ompLocal_accumulate_zero {T E : Type*} [AddCommMonoid T] (g : E → T)
    (threads threads' : ℕ) (schedule schedule' : List (ℕ × E))
    (hsched : ∀ ev ∈ schedule, ev.1 < threads) (hsched' : ∀ ev ∈ schedule', ev.1 < threads')
    (hpos : 0 < threads) (hpos' : 0 < threads')
    (hsame : (schedule.map Prod.snd).Perm (schedule'.map Prod.snd)) :
    (ompRun (fun t e => t + g e) (ompLocal threads 0) schedule).bind (ompAccumulate (· + ·)) =
      (ompRun (fun t e => t + g e) (ompLocal threads' 0) schedule').bind
        (ompAccumulate (· + ·)) := by
  rw [ompLocal_accumulate g threads hpos 0 schedule hsched,
    ompLocal_accumulate g threads' hpos' 0 schedule' hsched']
  have e := (hsame.map g).sum_eq
  simp only [List.map_map] at e
  simp only [nsmul_zero, zero_add, Option.some.injEq]
  exact e

/-- **C134.** A minimum over a parallel loop is the least of the start value and the values of all
bodies, whatever the schedule. -/
theorem ompLocal_min {T E : Type*} [LinearOrder T] (g : E → T) (threads : ℕ)
    (hthreads : 0 < threads) (value : T) (schedule : List (ℕ × E))
    (hsched : ∀ ev ∈ schedule, ev.1 < threads) :
    ∃ m, (ompRun (fun t e => min t (g e)) (ompLocal threads value) schedule).bind ompMin = some m ∧
      IsLeast ({value} ∪ {x | ∃ ev ∈ schedule, g ev.2 = x}) m := by
  obtain ⟨inst, h⟩ := ompRun_total (fun t e => min t (g e)) schedule (ompLocal threads value)
    (by simpa [ompLocal] using hsched)
  have hlen : inst.length = threads := by
    rw [(ompRun_length _ _ _ _ h).1]
    simp [ompLocal]
  have hget : ∀ t (ht : t < inst.length), inst[t] =
      (((schedule.filter (fun ev => ev.1 == t)).map Prod.snd).map g).foldl min value := by
    intro t ht
    rw [ompRun_getElem _ _ _ _ h t (by simp [ompLocal]; omega) ht]
    simp only [List.foldl_map, ompLocal, List.getElem_replicate]
  cases hm : ompMin inst with
  | none =>
    cases inst with
    | nil => simp at hlen; omega
    | cons a as => simp [ompMin] at hm
  | some m =>
    refine ⟨m, by rw [h, Option.bind_some, hm], ?_, ?_⟩
    · obtain ⟨hmem, -⟩ := ompMin_spec inst m hm
      obtain ⟨t, ht, rfl⟩ := List.getElem_of_mem hmem
      rw [hget t ht]
      rcases (foldl_min_spec (((schedule.filter (fun ev => ev.1 == t)).map Prod.snd).map g)
        value).1 with h1 | h1
      · left; exact h1
      · right
        obtain ⟨e, he, heq⟩ := List.mem_map.mp h1
        obtain ⟨ev, hev, rfl⟩ := List.mem_map.mp he
        exact ⟨ev, (List.mem_filter.mp hev).1, heq⟩
    · intro x hx
      have hle := (ompMin_spec inst m hm).2
      rcases hx with hx | ⟨ev, hev, rfl⟩
      · rw [Set.mem_singleton_iff] at hx
        subst hx
        refine le_trans (hle _ (List.getElem_mem (by omega : 0 < inst.length))) ?_
        rw [hget 0 (by omega)]
        exact (foldl_min_spec _ _).2.1
      · have ht : ev.1 < inst.length := by rw [hlen]; exact hsched ev hev
        refine le_trans (hle _ (List.getElem_mem ht)) ?_
        rw [hget _ ht]
        refine (foldl_min_spec _ _).2.2 _ ?_
        exact List.mem_map_of_mem (List.mem_map_of_mem (List.mem_filter.mpr ⟨hev, by simp⟩))

/-- Three bodies on two threads, in two distributions. -/
example : (ompRun (fun t e => t + e) (ompLocal 2 0) [(0, 3), (1, 4), (0, 5)]).bind
      (ompAccumulate (· + ·)) = some 12 ∧
    (ompRun (fun t e => min t e) (ompLocal 2 9) [(1, 3), (1, 4), (0, 5)]).bind ompMin = some 3 ∧
    ompRun (fun t e => t + e) (ompLocal 2 0) [(2, 3)] = none := by decide

/-! ## C135 -/

/-- **C135.** The inner box of a box consists of the cells of the box in the given number of layers
next to the given side. -/
theorem innerBox_mem {d : ℕ} (lower upper : Fin d → ℤ) (side : ℤ) (dir : Fin d) (width : ℤ)
    (hwidth : width ≤ upper dir - lower dir + 1) (c : Fin d → ℤ) :
    (∀ i, (getInnerBox lower upper side dir width).1 i ≤ c i ∧
        c i ≤ (getInnerBox lower upper side dir width).2 i) ↔
      (∀ i, lower i ≤ c i ∧ c i ≤ upper i) ∧
        (if side = 0 then c dir < lower dir + width else upper dir - width < c dir) := by
  unfold getInnerBox
  by_cases hs : side = 0
  · simp only [hs, if_true]
    constructor
    · intro h
      refine ⟨fun i => ?_, ?_⟩
      · have := h i
        by_cases hi : i = dir
        · subst hi; simp only [if_true] at this; omega
        · simpa [hi] using this
      · have := h dir
        simp only [if_true] at this
        omega
    · rintro ⟨h, h2⟩ i
      have := h i
      by_cases hi : i = dir
      · subst hi; simp only [if_true]; omega
      · simpa [hi] using this
  · simp only [hs, if_false]
    constructor
    · intro h
      refine ⟨fun i => ?_, ?_⟩
      · have := h i
        by_cases hi : i = dir
        · subst hi; simp only [if_true] at this; omega
        · simpa [hi] using this
      · have := h dir
        simp only [if_true] at this
        omega
    · rintro ⟨h, h2⟩ i
      have := h i
      by_cases hi : i = dir
      · subst hi; simp only [if_true]; omega
      · simpa [hi] using this

variable {I K : Type*} [DecidableEq I] [Field K]

/-- How often a cell is counted: the number of loop bodies, over all ranks, tiles and patches, whose
array, ghost cells included, contains it. -/
def timesCounted (bodies : List (MeanFab I K)) (c : I) : ℕ :=
  (bodies.filter (fun f => decide (c ∈ f.cells))).length

omit [DecidableEq I] in
theorem sum_parts_eq [DecidableEq I] (box : Finset I) (u : I → K) (bodies : List (MeanFab I K))
    (hval : ∀ f ∈ bodies, ∀ c ∈ f.cells, f.value c = u c) :
    (bodies.map (meanPart box)).sum = (∑ c ∈ box, (timesCounted bodies c : K) * u c) /
      (box.card : K) := by
  induction bodies with
  | nil => simp [timesCounted]
  | cons f fs ih =>
    rw [List.map_cons, List.sum_cons, ih (fun g hg => hval g (List.mem_cons_of_mem _ hg)), meanPart,
      ← add_div]
    congr 1
    have e1 : ∑ c ∈ box ∩ f.cells, f.value c = ∑ c ∈ box, (if c ∈ f.cells then u c else 0) := by
      rw [← Finset.sum_filter, Finset.filter_mem_eq_inter]
      refine Finset.sum_congr rfl fun c hc => hval f (by simp) c (Finset.mem_inter.mp hc).2
    rw [e1, ← Finset.sum_add_distrib]
    refine Finset.sum_congr rfl fun c _ => ?_
    by_cases hc : c ∈ f.cells
    · simp only [timesCounted, List.filter_cons, hc, decide_true, if_true, List.length_cons,
        Nat.cast_add, Nat.cast_one]
      ring
    · simp only [timesCounted, List.filter_cons, hc, decide_false, if_false]
      simp

omit [DecidableEq I] in
theorem meanValue_eq_parts [DecidableEq I] (box : Finset I)
    (ranks : List (ℕ × List (ℕ × MeanFab I K)))
    (hsched : ∀ r ∈ ranks, 0 < r.1 ∧ ∀ ev ∈ r.2, ev.1 < r.1) :
    meanValueInBox box ranks =
      some (((ranks.flatMap (fun r => r.2.map Prod.snd)).map (meanPart box)).sum) := by
  unfold meanValueInBox
  have key : ranks.mapM (fun r => meanLocal r.1 box r.2) =
      some (ranks.map (fun r => (r.2.map (fun ev => meanPart box ev.2)).sum)) := by
    induction ranks with
    | nil => rfl
    | cons r rs ih =>
      have h1 : meanLocal r.1 box r.2 = some ((r.2.map (fun ev => meanPart box ev.2)).sum) := by
        unfold meanLocal
        rw [ompLocal_accumulate (meanPart box) r.1 (hsched r (by simp)).1 0 r.2
          (hsched r (by simp)).2]
        simp
      rw [List.mapM_cons, h1, ih (fun q hq => hsched q (List.mem_cons_of_mem _ hq))]
      rfl
  rw [key]
  simp only [Option.map_some, Option.some.injEq]
  clear key hsched
  induction ranks with
  | nil => simp
  | cons r rs ih =>
    simp only [List.map_cons, List.sum_cons, List.flatMap_cons, List.map_append, List.sum_append, ih,
      List.map_map]
    rfl

/-- **C135.** The value returned for a box, for every distribution of the patches to ranks, tiles and
threads: each cell enters as often as there are loop bodies whose array contains it. -/
theorem meanValue_weights (box : Finset I) (u : I → K) (ranks : List (ℕ × List (ℕ × MeanFab I K)))
    (hsched : ∀ r ∈ ranks, 0 < r.1 ∧ ∀ ev ∈ r.2, ev.1 < r.1)
    (hval : ∀ r ∈ ranks, ∀ ev ∈ r.2, ∀ c ∈ ev.2.cells, ev.2.value c = u c) :
    meanValueInBox box ranks = some ((∑ c ∈ box,
      (timesCounted (ranks.flatMap (fun r => r.2.map Prod.snd)) c : K) * u c) / (box.card : K)) := by
  rw [meanValue_eq_parts box ranks hsched, sum_parts_eq box u]
  intro f hf
  obtain ⟨r, hr, hf⟩ := List.mem_flatMap.mp hf
  obtain ⟨ev, hev, rfl⟩ := List.mem_map.mp hf
  exact hval r hr ev hev

/-- **C135.** The value returned is the arithmetic mean over the cells of the box if every cell of the
box belongs to exactly one array and that array is visited as one tile. -/
theorem meanValue_is_mean_partial (box : Finset I) (u : I → K)
    (ranks : List (ℕ × List (ℕ × MeanFab I K)))
    (hsched : ∀ r ∈ ranks, 0 < r.1 ∧ ∀ ev ∈ r.2, ev.1 < r.1)
    (hval : ∀ r ∈ ranks, ∀ ev ∈ r.2, ∀ c ∈ ev.2.cells, ev.2.value c = u c)
    (honce : ∀ c ∈ box, timesCounted (ranks.flatMap (fun r => r.2.map Prod.snd)) c = 1) :
    meanValueInBox box ranks = some ((∑ c ∈ box, u c) / (box.card : K)) := by
  rw [meanValue_weights box u ranks hsched hval]
  congr 2
  refine Finset.sum_congr rfl fun c hc => ?_
  rw [honce c hc]
  simp

/-- **C135**, a disagreement: a patch that is visited in `n` tiles reports `n` times the mean, already
without ghost cells, on one rank and with one thread. -/
theorem meanValue_multiplied_by_tiles (box : Finset I) (u : I → K) (n : ℕ) (cells : Finset I)
    (hsub : box ⊆ cells) :
    meanValueInBox box [(1, (meanBodies [⟨cells, u, n⟩]).map (fun f => (0, f)))] =
      some ((n : K) * ((∑ c ∈ box, u c) / (box.card : K))) := by
  rw [meanValue_weights box u]
  · congr 1
    rw [← mul_div_assoc, Finset.mul_sum]
    congr 1
    refine Finset.sum_congr rfl fun c hc => ?_
    congr 1
    simp [timesCounted, meanBodies, hsub hc]
  · intro r hr
    simp only [List.mem_singleton] at hr
    subst hr
    simp
  · intro r hr ev hev c _
    simp only [List.mem_singleton] at hr
    subst hr
    simp only [meanBodies, List.flatMap_cons, List.flatMap_nil, List.append_nil, List.map_replicate,
      List.mem_replicate] at hev
    rw [hev.2]

/-- Two patches on two ranks that share a ghost cell: the cell is counted twice, so that the mean of a
uniform value is too large; without the ghost cells it is right. -/
example : meanValueInBox (I := ℤ) (K := ℚ) {0, 1} [(1, [(0, ⟨{0, 1}, fun _ => 6, 1⟩)]),
      (1, [(0, ⟨{1}, fun _ => 6, 1⟩)])] = some 9 ∧
    meanValueInBox (I := ℤ) (K := ℚ) {0, 1} [(1, [(0, ⟨{0}, fun _ => 6, 1⟩)]),
      (2, [(1, ⟨{1}, fun _ => 6, 1⟩)])] = some 6 := by decide +kernel

/-- The hypotheses of the theorem on the mean hold for the second of them. -/
example : ∀ c ∈ ({0, 1} : Finset ℤ), timesCounted (([(1, [(0, ⟨{0}, fun _ => 6, 1⟩)]),
      (2, [(1, ⟨{1}, fun _ => 6, 1⟩)])] : List (ℕ × List (ℕ × MeanFab ℤ ℚ))).flatMap
        (fun r => r.2.map Prod.snd)) c = 1 := by decide

end Fub
