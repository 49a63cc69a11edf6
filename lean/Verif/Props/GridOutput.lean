import Verif.Model.GridOutput
import Verif.Props.IndexBox
import Mathlib.Algebra.BigOperators.Group.Finset.Basic
import Mathlib.Algebra.Order.Floor.Ring
import Mathlib.Algebra.Order.Field.Rat
import Mathlib.Data.Rat.Floor
import Mathlib.Tactic.Linarith
import Mathlib.Tactic.FieldSimp

/-!
C109: the grid that is written to an HDF5 file holds in every cell the value of the finest level that covers the cell.
C110: the states gathered at probe locations are those of the finest cell that contains the probe.
-/

namespace Fub

section
variable {n : ℕ} {K : Type} [Field K] [LinearOrder K]

/-- A cell lies in at most one patch of the level. -/
def OutLevel.Disjoint (l : OutLevel n K) : Prop :=
  ∀ p ∈ l.patches, ∀ q ∈ l.patches, ∀ i, p.box.Has i → q.box.Has i → p = q

/-- The specification: the value of the patch that covers the cell on the finest of the levels (the list starts with the finest one), zero if there is none. -/
def finestValue : List (OutLevel n K) → ℕ → Index n → K
  | [], _, _ => 0
  | l :: coarser, c, i =>
    match l.patches.find? fun p => p.box.Has i with
    | some p => p.val c i
    | none => finestValue coarser c (coarsenIdx l.ratio i)

/-- The level of the patch data: disjoint patches owned by existing ranks. -/
def OutLevel.Valid (ranks : ℕ) (l : OutLevel n K) : Prop := l.Disjoint ∧ ∀ p ∈ l.patches, p.owner < ranks

omit [Field K] [LinearOrder K] in
theorem localFold_covered (ps : List (OutPatch n K)) (init : ℕ → Index n → K) (c : ℕ) (i : Index n) (v : K)
    (h : ∀ q ∈ ps, q.box.Has i → q.val c i = v) (hex : ∃ q ∈ ps, q.box.Has i) :
    ps.foldl (fun f p c i => if p.box.Has i then p.val c i else f c i) init c i = v := by
  induction ps generalizing init with
  | nil => simp at hex
  | cons p ps ih =>
    rw [List.foldl_cons]
    by_cases hps : ∃ q ∈ ps, q.box.Has i
    · exact ih _ (fun q hq => h q (List.mem_cons_of_mem _ hq)) hps
    · have hp : p.box.Has i := by
        obtain ⟨q, hq, hqi⟩ := hex
        rcases List.mem_cons.1 hq with rfl | hq
        · exact hqi
        · exact absurd ⟨q, hq, hqi⟩ hps
      have hnone : ∀ (f : ℕ → Index n → K), ps.foldl (fun f p c i => if p.box.Has i then p.val c i else f c i) f c i = f c i := by
        clear ih h hex
        induction ps with
        | nil => intro f; rfl
        | cons q qs ihq =>
          intro f
          rw [List.foldl_cons, ihq (fun ⟨r, hr, hri⟩ => hps ⟨r, List.mem_cons_of_mem _ hr, hri⟩)]
          exact if_neg fun hq => hps ⟨q, List.mem_cons_self, hq⟩
      rw [hnone]
      exact (if_pos hp).trans (h p List.mem_cons_self hp)

omit [Field K] [LinearOrder K] in
theorem localFold_uncovered (ps : List (OutPatch n K)) (init : ℕ → Index n → K) (c : ℕ) (i : Index n) (h : ∀ q ∈ ps, ¬q.box.Has i) :
    ps.foldl (fun f p c i => if p.box.Has i then p.val c i else f c i) init c i = init c i := by
  induction ps generalizing init with
  | nil => rfl
  | cons p ps ih =>
    rw [List.foldl_cons, ih _ fun q hq => h q (List.mem_cons_of_mem _ hq)]
    exact if_neg (h p List.mem_cons_self)

omit [LinearOrder K] in
theorem reduceSum_single (ranks r : ℕ) (hr : r < ranks) (f : ℕ → K) (v : K) (hv : f r = v) (h0 : ∀ k, k ≠ r → f k = 0) : reduceSum ranks f = v := by
  unfold reduceSum
  have zero : ∀ m, m ≤ r → ((List.range m).map f).sum = 0 := by
    intro m
    induction m with
    | zero => intro _; rfl
    | succ m ih => intro hm; rw [List.range_succ, List.map_append, List.sum_append, ih (by omega)]; simp [h0 m (by omega)]
  induction ranks with
  | zero => omega
  | succ m ih =>
    rw [List.range_succ, List.map_append, List.sum_append]
    rcases Nat.lt_or_ge r m with hlt | hge
    · rw [ih hlt]; simp [h0 m (by omega)]
    · obtain rfl : m = r := by omega
      rw [zero m le_rfl]; simp [hv]

/-- What one level gathers: the value of the patch that covers the cell. -/
theorem gathered_covered (ranks : ℕ) (l : OutLevel n K) (hl : l.Valid ranks) (p : OutPatch n K) (hp : p ∈ l.patches) (init : ℕ → ℕ → Index n → K) (c : ℕ) (i : Index n)
    (hi : p.box.Has i) (hinit : ∀ k, k ≠ p.owner → init k c i = 0) : (reduceSum ranks fun rank => localFab l.patches rank (init rank) c i) = p.val c i := by
  refine reduceSum_single ranks p.owner (hl.2 p hp) _ _ ?_ ?_
  · unfold localFab
    refine localFold_covered _ _ _ _ _ ?_ ⟨p, List.mem_filter.2 ⟨hp, by simp⟩, hi⟩
    intro q hq hqi
    rw [hl.1 q (List.mem_filter.1 hq).1 p hp i hqi hi]
  · intro k hk
    unfold localFab
    rw [localFold_uncovered, hinit k hk]
    intro q hq hqi
    have hqp := hl.1 q (List.mem_filter.1 hq).1 p hp i hqi hi
    have := (List.mem_filter.1 hq).2
    rw [hqp] at this
    exact hk (of_decide_eq_true this).symm

theorem gathered_uncovered (ranks : ℕ) (l : OutLevel n K) (init : ℕ → ℕ → Index n → K) (c : ℕ) (i : Index n)
    (hi : ∀ p ∈ l.patches, ¬p.box.Has i) : (reduceSum ranks fun rank => localFab l.patches rank (init rank) c i) = reduceSum ranks fun rank => init rank c i := by
  unfold reduceSum
  congr 1
  refine List.map_congr_left fun k _ => ?_
  exact localFold_uncovered _ _ _ _ fun q hq => hi q (List.mem_filter.1 hq).1

omit [LinearOrder K] in
theorem reduceSum_zero (ranks : ℕ) : (reduceSum ranks fun _ => (0 : K)) = 0 := by
  unfold reduceSum
  induction ranks with
  | zero => rfl
  | succ m ih => rw [List.range_succ, List.map_append, List.sum_append, ih]; simp

theorem fillFold (r : Index n) (g : ℕ → Index n → K) (L : List ℕ) (hL : 0 ∉ L) (fab : ℕ → Index n → K) (c : ℕ) (i : Index n) :
    L.foldl (fillComp r g) fab c i = if c ∈ L ∧ fab 0 i = 0 then g c (coarsenIdx r i) else fab c i := by
  induction L generalizing fab with
  | nil => simp
  | cons a L ih =>
    rw [List.foldl_cons, ih (fun h => hL (List.mem_cons_of_mem _ h))]
    have ha : (0 : ℕ) ≠ a := fun h => hL (h ▸ List.mem_cons_self)
    have h0 : fillComp r g fab a 0 i = fab 0 i := if_neg fun h => ha h.1
    rw [h0]
    by_cases hz : fab 0 i = 0
    · by_cases hc : c ∈ L
      · simp only [hc, hz, and_self, if_true, List.mem_cons, or_true]
      · by_cases hca : c = a
        · subst hca
          rw [if_neg fun h => hc h.1, if_pos ⟨List.mem_cons_self, hz⟩]
          exact if_pos ⟨rfl, hz⟩
        · simp only [hc, hca, List.mem_cons, or_self, false_and, if_false]
          exact if_neg fun h => hca h.1
    · simp only [hz, and_false, if_false]
      exact if_neg fun h => hz h.2

/-- The two fill loops together, for every component of the data. -/
theorem fillAll (r : Index n) (g : ℕ → Index n → K) (ncomp : ℕ) (fab : ℕ → Index n → K) (c : ℕ) (hc : c < ncomp) (i : Index n) :
    fillComp r g ((List.range' 1 (ncomp - 1)).foldl (fillComp r g) fab) 0 c i = if fab 0 i = 0 then g c (coarsenIdx r i) else fab c i := by
  have h0 : (0 : ℕ) ∉ List.range' 1 (ncomp - 1) := by simp
  unfold fillComp
  have e0 : (List.range' 1 (ncomp - 1)).foldl (fillComp r g) fab 0 i = fab 0 i := by rw [fillFold _ _ _ h0]; simp
  have e := fillFold r g _ h0 fab c i
  change (if c = 0 ∧ (List.range' 1 (ncomp - 1)).foldl (fillComp r g) fab 0 i = 0 then _ else (List.range' 1 (ncomp - 1)).foldl (fillComp r g) fab c i) = _
  rw [e0, e]
  by_cases hz : fab 0 i = 0
  · by_cases hc0 : c = 0
    · simp only [hc0, hz, and_self, if_true]
    · have hm : c ∈ List.range' 1 (ncomp - 1) := by rw [List.mem_range'_1]; omega
      simp only [hc0, hz, false_and, if_false, hm, and_self, if_true]
  · simp only [hz, and_false, if_false]

/-- C109. Output without embedded boundaries. The written grid holds in every cell and component the value of the finest level that covers the cell, if the levels
consist of disjoint patches, whatever ranks own them, and if component zero does not vanish in any cell of a patch (for gases: the density is positive).
The full statement has no condition on component zero; `hdf5_zero_is_overwritten` shows that it is false. -/
theorem hdf5_compose_partial (ranks ncomp : ℕ) (ls : List (OutLevel n K)) (hne : ls ≠ []) (hv : ∀ l ∈ ls, l.Valid ranks)
    (hnz : ∀ l ∈ ls, ∀ p ∈ l.patches, ∀ i, p.box.Has i → p.val 0 i ≠ 0) :
    ∃ fab, composeLevels ranks ncomp ls = some fab ∧ ∀ c < ncomp, ∀ i, fab c i = finestValue ls.reverse c i := by
  obtain ⟨cs, rfl⟩ : ∃ cs : List (OutLevel n K), ls = cs.reverse := ⟨ls.reverse, by simp⟩
  simp only [List.mem_reverse, ne_eq, List.reverse_eq_nil_iff] at hne hv hnz
  rw [List.reverse_reverse]
  induction cs with
  | nil => exact absurd rfl hne
  | cons l cs ih =>
    have hfold : composeLevels ranks ncomp (l :: cs).reverse = some (composeStep ranks ncomp (composeLevels ranks ncomp cs.reverse) l) := by
      unfold composeLevels
      rw [List.reverse_cons, List.foldl_append]
      rfl
    refine ⟨_, hfold, fun c hc i => ?_⟩
    have hvl := hv l List.mem_cons_self
    have hnl := hnz l List.mem_cons_self
    set fab : ℕ → Index n → K := fun c i => reduceSum ranks fun rank => localFab l.patches rank (fun _ _ => 0) c i with hfab
    have hcov : ∀ p ∈ l.patches, p.box.Has i → ∀ c, fab c i = p.val c i :=
      fun p hp hi c => gathered_covered ranks l hvl p hp (fun _ _ _ => 0) c i hi fun _ _ => rfl
    have hunc : (∀ p ∈ l.patches, ¬p.box.Has i) → ∀ c, fab c i = 0 :=
      fun h c => (gathered_uncovered ranks l (fun _ _ _ => 0) c i h).trans (reduceSum_zero ranks)
    by_cases hcs : cs = []
    · subst hcs
      change fab c i = _
      unfold finestValue
      cases hf : l.patches.find? fun p => p.box.Has i with
      | some p =>
        have hi : p.box.Has i := by simpa using List.find?_some hf
        exact hcov p (List.mem_of_find?_eq_some hf) hi c
      | none =>
        have h : ∀ p ∈ l.patches, ¬p.box.Has i := by simpa using hf
        exact hunc h c
    · obtain ⟨g, hg, hgv⟩ := ih hcs (fun l hl => hv l (List.mem_cons_of_mem _ hl)) fun l hl => hnz l (List.mem_cons_of_mem _ hl)
      rw [hg]
      change fillComp l.ratio g ((List.range' 1 (ncomp - 1)).foldl (fillComp l.ratio g) fab) 0 c i = _
      rw [fillAll _ _ _ _ _ hc]
      unfold finestValue
      cases hf : l.patches.find? fun p => p.box.Has i with
      | some p =>
        have hi : p.box.Has i := by simpa using List.find?_some hf
        have hp := List.mem_of_find?_eq_some hf
        rw [if_neg (by rw [hcov p hp hi]; exact hnl p hp i hi), hcov p hp hi c]
      | none =>
        have h : ∀ p ∈ l.patches, ¬p.box.Has i := by simpa using hf
        rw [if_pos (hunc h 0), hgv c hc]

/-- A two level hierarchy in one dimension: cells 0 to 3 on level zero, cells 2 and 3 of the fine level (ratio two) are refined, the fine values are `v`; the fine
patch is owned by rank `owner`. Component one is the volume fraction for the cut-cell output. -/
def twoLevels (owner : ℕ) (v : ℚ) : List (OutLevel 1 ℚ) :=
  [⟨[⟨0, ⟨![0], ![3]⟩, fun c i => if c = 0 then 5 + i 0 else 1⟩], ![1], ![0], ![1]⟩,
   ⟨[⟨owner, ⟨![2], ![3]⟩, fun c _ => if c = 0 then v else 1⟩], ![2], ![0], ![1 / 2]⟩]

theorem twoLevels_has0 (i : Index 1) : (⟨![0], ![3]⟩ : ABox 1).Has i ↔ 0 ≤ i 0 ∧ i 0 ≤ 3 := by simp [ABox.Has]
theorem twoLevels_has1 (i : Index 1) : (⟨![2], ![3]⟩ : ABox 1).Has i ↔ 2 ≤ i 0 ∧ i 0 ≤ 3 := by simp [ABox.Has]

theorem twoLevels_valid (owner ranks : ℕ) (h0 : 0 < ranks) (h : owner < ranks) (v : ℚ) : ∀ l ∈ twoLevels owner v, l.Valid ranks := by
  intro l hl
  simp only [twoLevels, List.mem_cons, List.not_mem_nil, or_false] at hl
  rcases hl with rfl | rfl <;>
  · refine ⟨fun p hp q hq _ _ _ => ?_, fun p hp => ?_⟩
    · simp only [List.mem_cons, List.not_mem_nil, or_false] at hp hq; rw [hp, hq]
    · simp only [List.mem_cons, List.not_mem_nil, or_false] at hp; rw [hp]; assumption

/-- The hypotheses hold for `twoLevels` with fine value seven owned by the second rank, and both levels are visible in the result. -/
example : (∀ l ∈ twoLevels 1 7, l.Valid 2) ∧ (∀ l ∈ twoLevels 1 7, ∀ p ∈ l.patches, ∀ i, p.box.Has i → p.val 0 i ≠ 0) ∧
    (composeLevels 2 2 (twoLevels 1 7)).map (fun f => [f 0 ![1], f 0 ![2], f 0 ![3], f 0 ![4], f 0 ![7]]) = some [5, 7, 7, 7, 8] := by
  refine ⟨twoLevels_valid 1 2 (by norm_num) (by norm_num) 7, ?_, by decide +kernel⟩
  intro l hl p hp i hi
  simp only [twoLevels, List.mem_cons, List.not_mem_nil, or_false] at hl
  rcases hl with rfl | rfl
  · simp only [List.mem_cons, List.not_mem_nil, or_false] at hp
    subst hp
    have := (twoLevels_has0 i).1 hi
    have h : (0 : ℚ) ≤ (i 0 : ℚ) := by exact_mod_cast this.1
    simp only [if_true]
    linarith
  · simp only [List.mem_cons, List.not_mem_nil, or_false] at hp
    subst hp
    norm_num

/-- C109, the negation: a fine value of component zero that is zero is replaced by the coarse value. -/
theorem hdf5_zero_is_overwritten : (∀ l ∈ twoLevels 0 0, l.Valid 1) ∧ finestValue (twoLevels 0 0).reverse 0 ![2] = 0 ∧
    (composeLevels 1 1 (twoLevels 0 0)).map (fun f => f 0 ![2]) = some 6 :=
  ⟨twoLevels_valid 0 1 (by norm_num) (by norm_num) 0, by decide +kernel, by decide +kernel⟩

end

section
variable {n : ℕ}

theorem coarsen_mono (r i j : Index n) (hr : ∀ d, 0 < r d) (d : Fin n) (h : i d ≤ j d) : coarsenIdx r i d ≤ coarsenIdx r j d :=
  Int.ediv_le_ediv (hr d) h

/-- Two boxes that follow each other: the coarsened cells of the finer box lie in the coarser box. -/
def BoxChain (r : Index n) (coarse fine : ABox n) : Prop := ∀ i, fine.Has i → coarse.Has (coarsenIdx r i)

theorem outputBoxes_append (finest : ABox n) (ratios : List (Index n)) (r : Index n) :
    ∃ b rest, outputBoxes finest ratios = b :: rest ∧ outputBoxes finest (ratios ++ [r]) = b.coarsen r :: b :: rest := by
  unfold outputBoxes
  suffices h : ∀ (acc : List (ABox n)) (cur : ABox n) , ∃ b rest,
      (ratios.foldl (fun (acc : List (ABox n) × ABox n) r => (acc.1 ++ [acc.2.coarsen r], acc.2.coarsen r)) (acc ++ [cur], cur)) = (rest ++ [b], b) by
    obtain ⟨b, rest, hb⟩ := h [] finest
    refine ⟨b, rest.reverse, ?_, ?_⟩
    · rw [List.nil_append] at hb; rw [hb]; simp
    · rw [List.nil_append] at hb; rw [List.foldl_append, hb]; simp
  intro acc cur
  induction ratios generalizing acc cur with
  | nil => exact ⟨cur, acc, rfl⟩
  | cons a ratios ih => rw [List.foldl_cons]; exact ih _ _

/-- C109. Restricted output: the list of boxes has one box for each level, it ends with the requested box, and whenever a cell of the box of a level is filled from the
coarser level, the cell that is read lies in the box of the coarser level. -/
theorem hdf5_boxes_chain (finest : ABox n) (ratios : List (Index n)) (hr : ∀ r ∈ ratios, ∀ d, 0 < r d) :
    (outputBoxes finest ratios).length = ratios.length + 1 ∧ (outputBoxes finest ratios).getLast? = some finest ∧
    ∀ k r, ratios.reverse[k]? = some r → ∃ c f, (outputBoxes finest ratios)[k]? = some c ∧ (outputBoxes finest ratios)[k + 1]? = some f ∧ BoxChain r c f := by
  obtain ⟨rs, rfl⟩ : ∃ rs : List (Index n), ratios = rs.reverse := ⟨ratios.reverse, by simp⟩
  rw [List.reverse_reverse]
  simp only [List.mem_reverse] at hr
  induction rs with
  | nil => refine ⟨rfl, rfl, fun k r h => by simp at h⟩
  | cons a rs ih =>
    obtain ⟨h1, h2, h3⟩ := ih fun r h => hr r (List.mem_cons_of_mem _ h)
    obtain ⟨b, rest, e1, e2⟩ := outputBoxes_append finest rs.reverse a
    rw [e1] at h1 h2 h3
    rw [List.reverse_cons, e2]
    refine ⟨by simp only [List.length_cons, List.length_append, List.length_nil] at h1 ⊢; omega, by rw [List.getLast?_cons_cons]; exact h2, ?_⟩
    intro k r hk
    cases k with
    | zero =>
      obtain rfl : a = r := by simpa using hk
      refine ⟨b.coarsen a, b, rfl, rfl, fun i hi d => ?_⟩
      exact ⟨coarsen_mono a b.lo i (hr a List.mem_cons_self) d (hi d).1, coarsen_mono a i b.hi (hr a List.mem_cons_self) d (hi d).2⟩
    | succ k =>
      obtain ⟨c, f, hc, hf, hcf⟩ := h3 k r (by simpa using hk)
      exact ⟨c, f, by simpa using hc, by simpa using hf, hcf⟩

/-- Non-trivial case: two refinements by two and a box that is not aligned with the coarse grids. -/
example : (outputBoxes (⟨![3, -5], ![9, 6]⟩ : ABox 2) [![2, 2], ![2, 2]]).map (fun b => (b.lo 0, b.lo 1, b.hi 0, b.hi 1)) =
    [(0, -2, 2, 1), (1, -3, 4, 3), (3, -5, 9, 6)] := by decide

end

section
variable {n : ℕ} {K : Type} [Field K] [LinearOrder K]

theorem fillFoldCut (ncomp : ℕ) (r : Index n) (g : ℕ → Index n → K) (L : List ℕ) (hL : 0 ∉ L) (hN : ncomp ∉ L) (fab : ℕ → Index n → K) (c : ℕ) (i : Index n) :
    L.foldl (fillCompCut ncomp r g) fab c i = if c ∈ L ∧ fab 0 i = 0 ∧ 0 < fab ncomp i then g c (coarsenIdx r i) else fab c i := by
  induction L generalizing fab with
  | nil => simp
  | cons a L ih =>
    rw [List.foldl_cons, ih (fun h => hL (List.mem_cons_of_mem _ h)) fun h => hN (List.mem_cons_of_mem _ h)]
    have ha : (0 : ℕ) ≠ a := fun h => hL (h ▸ List.mem_cons_self)
    have hb : ncomp ≠ a := fun h => hN (h ▸ List.mem_cons_self)
    have h0 : fillCompCut ncomp r g fab a 0 i = fab 0 i := if_neg fun h => ha h.1
    have h1 : fillCompCut ncomp r g fab a ncomp i = fab ncomp i := if_neg fun h => hb h.1
    rw [h0, h1]
    by_cases hz : fab 0 i = 0 ∧ 0 < fab ncomp i
    · by_cases hc : c ∈ L
      · rw [if_pos ⟨hc, hz⟩, if_pos ⟨List.mem_cons_of_mem _ hc, hz⟩]
      · by_cases hca : c = a
        · subst hca
          rw [if_neg fun h => hc h.1, if_pos ⟨List.mem_cons_self, hz⟩]
          exact if_pos ⟨rfl, hz⟩
        · rw [if_neg fun h => hc h.1, if_neg fun h => (List.mem_cons.1 h.1).elim hca hc]
          exact if_neg fun h => hca h.1
    · rw [if_neg fun h => hz h.2, if_neg fun h => hz h.2]
      exact if_neg fun h => hz h.2

theorem fillAllCut (r : Index n) (g : ℕ → Index n → K) (ncomp : ℕ) (hn : 0 < ncomp) (fab : ℕ → Index n → K) (c : ℕ) (i : Index n) :
    fillCompCut ncomp r g ((List.range' 1 (ncomp - 1)).foldl (fillCompCut ncomp r g) fab) 0 c i =
      if c < ncomp ∧ fab 0 i = 0 ∧ 0 < fab ncomp i then g c (coarsenIdx r i) else fab c i := by
  have h0 : (0 : ℕ) ∉ List.range' 1 (ncomp - 1) := by simp
  have hN : ncomp ∉ List.range' 1 (ncomp - 1) := by rw [List.mem_range'_1]; omega
  have e0 : (List.range' 1 (ncomp - 1)).foldl (fillCompCut ncomp r g) fab 0 i = fab 0 i := by rw [fillFoldCut _ _ _ _ h0 hN]; exact if_neg fun h => h0 h.1
  have eN : (List.range' 1 (ncomp - 1)).foldl (fillCompCut ncomp r g) fab ncomp i = fab ncomp i := by
    rw [fillFoldCut _ _ _ _ h0 hN]; exact if_neg fun h => hN h.1
  have e := fillFoldCut ncomp r g _ h0 hN fab c i
  change (if c = 0 ∧ (List.range' 1 (ncomp - 1)).foldl (fillCompCut ncomp r g) fab 0 i = 0 ∧ 0 < (List.range' 1 (ncomp - 1)).foldl (fillCompCut ncomp r g) fab ncomp i
    then _ else (List.range' 1 (ncomp - 1)).foldl (fillCompCut ncomp r g) fab c i) = _
  rw [e0, eN, e]
  by_cases hz : fab 0 i = 0 ∧ 0 < fab ncomp i
  · by_cases hc0 : c = 0
    · rw [if_pos ⟨hc0, hz⟩, if_pos ⟨by omega, hz⟩]
    · rw [if_neg fun h => hc0 h.1]
      by_cases hc : c < ncomp
      · rw [if_pos ⟨by rw [List.mem_range'_1]; omega, hz⟩, if_pos ⟨hc, hz⟩]
      · rw [if_neg fun h => hc (by have := h.1; rw [List.mem_range'_1] at this; omega), if_neg fun h => hc h.1]
  · rw [if_neg fun h => hz h.2, if_neg fun h => hz h.2, if_neg fun h => hz h.2]

/-- C109. Output with embedded boundaries for the whole domain, for patches that are all owned by rank zero: the volume fraction is that of the finest level that covers
the cell, and in every cell with a positive volume fraction the state is that of the finest level. Component zero does not vanish in the fluid part.
Missing: patches owned by other ranks (`hdf5_cut_ranks_add_fractions`) and the output restricted to a box (`hdf5_cut_box_loses_coarse`), for which it is false. -/
theorem hdf5_cut_compose_partial (ranks ncomp : ℕ) (hn : 0 < ncomp) (ls : List (OutLevel n K)) (hne : ls ≠ []) (hv : ∀ l ∈ ls, l.Valid ranks)
    (hown : ∀ l ∈ ls, ∀ p ∈ l.patches, p.owner = 0) (hr : 0 < ranks)
    (hnz : ∀ l ∈ ls, ∀ p ∈ l.patches, ∀ i, p.box.Has i → 0 < p.val ncomp i → p.val 0 i ≠ 0) :
    ∃ fab, composeCutLevels true ranks ncomp ls = some fab ∧ ∀ i, fab ncomp i = finestValue ls.reverse ncomp i ∧
      (0 < finestValue ls.reverse ncomp i → ∀ c < ncomp, fab c i = finestValue ls.reverse c i) := by
  obtain ⟨cs, rfl⟩ : ∃ cs : List (OutLevel n K), ls = cs.reverse := ⟨ls.reverse, by simp⟩
  simp only [List.mem_reverse, ne_eq, List.reverse_eq_nil_iff] at hne hv hnz hown
  rw [List.reverse_reverse]
  induction cs with
  | nil => exact absurd rfl hne
  | cons l cs ih =>
    have hfold : composeCutLevels true ranks ncomp (l :: cs).reverse = some (composeCutStep true ranks ncomp (composeCutLevels true ranks ncomp cs.reverse) l) := by
      unfold composeCutLevels
      rw [List.reverse_cons, List.foldl_append]
      rfl
    refine ⟨_, hfold, fun i => ?_⟩
    have hvl := hv l List.mem_cons_self
    have hnl := hnz l List.mem_cons_self
    have hol := hown l List.mem_cons_self
    by_cases hcs : cs = []
    · subst hcs
      have hcov : ∀ p ∈ l.patches, p.box.Has i → ∀ c, composeCutStep true ranks ncomp none l c i = p.val c i :=
        fun p hp hi c => gathered_covered ranks l hvl p hp (fun _ _ _ => 0) c i hi fun _ _ => rfl
      have hunc : (∀ p ∈ l.patches, ¬p.box.Has i) → ∀ c, composeCutStep true ranks ncomp none l c i = 0 :=
        fun h c => (gathered_uncovered ranks l (fun _ _ _ => 0) c i h).trans (reduceSum_zero ranks)
      change composeCutStep true ranks ncomp none l ncomp i = _ ∧ (_ → ∀ c < ncomp, composeCutStep true ranks ncomp none l c i = _)
      simp only [finestValue]
      cases hf : l.patches.find? fun p => p.box.Has i with
      | some p =>
        have hi : p.box.Has i := by simpa using List.find?_some hf
        have hp := List.mem_of_find?_eq_some hf
        exact ⟨hcov p hp hi _, fun _ c _ => hcov p hp hi c⟩
      | none =>
        have h : ∀ p ∈ l.patches, ¬p.box.Has i := by simpa using hf
        exact ⟨hunc h _, fun _ c _ => hunc h c⟩
    · obtain ⟨g, hg, hgv⟩ := ih hcs (fun l hl => hv l (List.mem_cons_of_mem _ hl)) (fun l hl => hnz l (List.mem_cons_of_mem _ hl))
        fun l hl => hown l (List.mem_cons_of_mem _ hl)
      rw [hg]
      set init : ℕ → ℕ → Index n → K := fun rank c i => if (true : Bool) ∧ rank = 0 ∧ c = ncomp then g c (coarsenIdx l.ratio i) else 0 with hinit
      set fab : ℕ → Index n → K := fun c i => reduceSum ranks fun rank => localFab l.patches rank (init rank) c i with hfab
      have hstep : ∀ c, composeCutStep true ranks ncomp (some g) l c i = if c < ncomp ∧ fab 0 i = 0 ∧ 0 < fab ncomp i then g c (coarsenIdx l.ratio i) else fab c i :=
        fun c => fillAllCut l.ratio g ncomp hn fab c i
      have hcov : ∀ p ∈ l.patches, p.box.Has i → ∀ c, fab c i = p.val c i := by
        intro p hp hi c
        refine gathered_covered ranks l hvl p hp init c i hi fun k hk => ?_
        rw [hol p hp] at hk
        exact if_neg fun h => hk h.2.1
      have hunc : (∀ p ∈ l.patches, ¬p.box.Has i) → ∀ c, fab c i = if c = ncomp then g c (coarsenIdx l.ratio i) else 0 := by
        intro h c
        refine (gathered_uncovered ranks l init c i h).trans ?_
        refine reduceSum_single ranks 0 hr _ _ ?_ fun k hk => if_neg fun h => hk h.2.1
        simp only [hinit, true_and]
      clear_value fab init
      simp only [hstep]
      rw [if_neg (fun h => absurd h.1 (lt_irrefl _))]
      unfold finestValue
      cases hf : l.patches.find? fun p => p.box.Has i with
      | some p =>
        have hi : p.box.Has i := by simpa using List.find?_some hf
        have hp := List.mem_of_find?_eq_some hf
        simp only [hcov p hp hi]
        refine ⟨trivial, fun hpos c _ => if_neg fun h => hnl p hp i hi hpos h.2.1⟩
      | none =>
        have h : ∀ p ∈ l.patches, ¬p.box.Has i := by simpa using hf
        simp only [hunc h, if_true]
        obtain ⟨ha, hb⟩ := hgv (coarsenIdx l.ratio i)
        refine ⟨ha, fun hpos c hc => ?_⟩
        rw [if_pos ⟨hc, if_neg hn.ne, by rw [ha]; exact hpos⟩, hb hpos c hc]

/-- The hypotheses of the theorem hold for `twoLevels` on one rank; the written fractions are one and the states are those of the finest level. -/
example : (∀ l ∈ twoLevels 0 7, l.Valid 1) ∧ (∀ l ∈ twoLevels 0 7, ∀ p ∈ l.patches, p.owner = 0) ∧
    (composeCutLevels true 1 1 (twoLevels 0 7)).map (fun f => [f 0 ![1], f 0 ![2], f 0 ![4], f 1 ![1], f 1 ![2]]) = some [5, 7, 7, 1, 1] := by
  refine ⟨twoLevels_valid 0 1 (by norm_num) (by norm_num) 7, ?_, by decide +kernel⟩
  intro l hl p hp
  simp only [twoLevels, List.mem_cons, List.not_mem_nil, or_false] at hl
  rcases hl with rfl | rfl <;> (simp only [List.mem_cons, List.not_mem_nil, or_false] at hp; rw [hp])

/-- C109, the negation for several ranks: the volume fraction of a fine patch owned by another rank is added to the fraction of the coarse cell. -/
theorem hdf5_cut_ranks_add_fractions : (∀ l ∈ twoLevels 1 7, l.Valid 2) ∧ finestValue (twoLevels 1 7).reverse 1 ![2] = 1 ∧
    (composeCutLevels true 2 1 (twoLevels 1 7)).map (fun f => f 1 ![2]) = some 2 :=
  ⟨twoLevels_valid 1 2 (by norm_num) (by norm_num) 7, by decide +kernel, by decide +kernel⟩

/-- C109, the negation for the output restricted to a box, on one rank: a fluid cell that is not covered by the finest level is written with state and fraction zero. -/
theorem hdf5_cut_box_loses_coarse : (∀ l ∈ twoLevels 0 7, l.Valid 1) ∧ finestValue (twoLevels 0 7).reverse 0 ![1] = 5 ∧ finestValue (twoLevels 0 7).reverse 1 ![1] = 1 ∧
    (composeCutLevels false 1 1 (twoLevels 0 7)).map (fun f => (f 0 ![1], f 1 ![1])) = some (0, 0) :=
  ⟨twoLevels_valid 0 1 (by norm_num) (by norm_num) 7, by decide +kernel, by decide +kernel, by decide +kernel⟩

end

section
variable {n : ℕ} {K : Type} [Field K] [LinearOrder K] [IsStrictOrderedRing K] [FloorRing K]

/-- The index of the cell of a level that contains a point. -/
def cellOf (l : OutLevel n K) (x : Fin n → K) : Index n := fun d => ⌊(x d - l.lo d) / l.dx d⌋

theorem inCell_iff (l : OutLevel n K) (hdx : ∀ d, 0 < l.dx d) (iv : Index n) (x : Fin n → K) : inCell l iv x ↔ iv = cellOf l x := by
  unfold inCell cellOf
  rw [funext_iff]
  refine forall_congr' fun d => ?_
  have h := hdx d
  rw [eq_comm, Int.floor_eq_iff, le_div_iff₀ h, div_lt_iff₀ h]
  constructor
  · rintro ⟨h1, h2⟩; exact ⟨by linarith, by linarith⟩
  · rintro ⟨h1, h2⟩; exact ⟨by linarith, by linarith⟩

/-- The specification: the state of the cell that contains the point, on the finest level (the list starts with it) with a patch that covers this cell. -/
def probeValue (x : Fin n → K) : List (OutLevel n K) → ℕ → K
  | [], _ => 0
  | l :: coarser, c =>
    match l.patches.find? fun p => p.box.Has (cellOf l x) with
    | some p => p.val c (cellOf l x)
    | none => probeValue x coarser c

omit [IsStrictOrderedRing K] [FloorRing K] [Field K] [LinearOrder K] in
theorem cellFold (L : List (Index n)) (j : Index n) (P : Index n → Prop) [DecidablePred P] (hP : ∀ iv, P iv ↔ iv = j) (f : Index n → K) (acc : K) :
    L.foldl (fun acc iv => if P iv then f iv else acc) acc = if j ∈ L then f j else acc := by
  induction L generalizing acc with
  | nil => simp
  | cons a L ih =>
    rw [List.foldl_cons, ih]
    by_cases hj : j ∈ L
    · rw [if_pos hj, if_pos (List.mem_cons_of_mem _ hj)]
    · rw [if_neg hj]
      by_cases ha : a = j
      · subst ha; rw [if_pos ((hP a).2 rfl), if_pos List.mem_cons_self]
      · rw [if_neg (mt (hP a).1 ha), if_neg]
        intro h
        rcases List.mem_cons.1 h with h | h
        · exact ha h.symm
        · exact hj h

theorem ABox.mem_cells (b : ABox n) (i : Index n) : i ∈ forEachIndex b.toIndexBox ↔ b.Has i := by
  rw [(forEachIndex_spec b.toIndexBox).1 i]
  unfold IndexBox.toSet ABox.toIndexBox ABox.Has
  simp only [Set.mem_setOf_eq]
  refine forall_congr' fun d => ?_
  omega

theorem gatherLocal_eq (l : OutLevel n K) (hdx : ∀ d, 0 < l.dx d) (rank : ℕ) (x : Fin n → K) (c : ℕ) :
    gatherLocal l rank x c = localFab l.patches rank (fun _ _ => 0) c (cellOf l x) := by
  unfold gatherLocal localFab
  have h : ∀ (ps : List (OutPatch n K)) (init : ℕ → Index n → K),
      ps.foldl (fun acc p => (forEachIndex p.box.toIndexBox).foldl (fun acc iv => if inCell l iv x then p.val c iv else acc) acc) (init c (cellOf l x)) =
      ps.foldl (fun f p c i => if p.box.Has i then p.val c i else f c i) init c (cellOf l x) := by
    intro ps
    induction ps with
    | nil => intro init; rfl
    | cons p ps ih =>
      intro init
      rw [List.foldl_cons, List.foldl_cons, ← ih]
      rw [cellFold _ (cellOf l x) (fun iv => inCell l iv x) (fun iv => inCell_iff l hdx iv x) (p.val c)]
      simp only [ABox.mem_cells]
  exact h _ fun _ _ => 0

/-- C110. `GatherStates` returns at position `k + nprobes * c` the component `c` of the finest cell that contains the probe `k`, if this value is not zero. Patches are disjoint and may be owned by any ranks.
The full statement does not require that the value is not zero; `gather_zero_is_replaced` shows that it is false. -/
theorem gather_states_partial (ranks nprobes : ℕ) (ls : List (OutLevel n K)) (hv : ∀ l ∈ ls, l.Valid ranks) (hdx : ∀ l ∈ ls, ∀ d, 0 < l.dx d)
    (xs : ℕ → Fin n → K) (k c : ℕ) (hk : k < nprobes) (hnz : probeValue (xs k) ls c ≠ 0) :
    gatherStates ranks ls nprobes xs (k + nprobes * c) = probeValue (xs k) ls c := by
  unfold gatherStates
  have hpos : 0 < nprobes := by omega
  rw [Nat.add_mul_mod_self_left, Nat.mod_eq_of_lt hk, Nat.add_mul_div_left _ _ hpos, Nat.div_eq_of_lt hk, Nat.zero_add]
  generalize xs k = x at hnz ⊢
  induction ls with
  | nil => rfl
  | cons l cs ih =>
    have hown : (reduceSum ranks fun rank => gatherLocal l rank x c) = match l.patches.find? fun p => p.box.Has (cellOf l x) with | some p => p.val c (cellOf l x) | none => 0 := by
      simp only [gatherLocal_eq l (hdx l List.mem_cons_self)]
      cases hf : l.patches.find? fun p => p.box.Has (cellOf l x) with
      | some p =>
        have hi : p.box.Has (cellOf l x) := by simpa using List.find?_some hf
        exact gathered_covered ranks l (hv l List.mem_cons_self) p (List.mem_of_find?_eq_some hf) (fun _ _ _ => 0) c _ hi fun _ _ => rfl
      | none =>
        have h : ∀ p ∈ l.patches, ¬p.box.Has (cellOf l x) := by simpa using hf
        exact (gathered_uncovered ranks l (fun _ _ _ => 0) c _ h).trans (reduceSum_zero ranks)
    have hgen : gatherLevels ranks x c (l :: cs) = if (reduceSum ranks fun rank => gatherLocal l rank x c) = 0 then gatherLevels ranks x c cs
        else reduceSum ranks fun rank => gatherLocal l rank x c := by
      cases cs with
      | nil =>
        change (reduceSum ranks fun rank => gatherLocal l rank x c) = if (reduceSum ranks fun rank => gatherLocal l rank x c) = 0 then 0 else _
        split
        · assumption
        · rfl
      | cons a b => rfl
    rw [hgen, hown]
    unfold probeValue at hnz ⊢
    cases hf : l.patches.find? fun p => p.box.Has (cellOf l x) with
    | some p =>
      rw [hf] at hnz
      exact if_neg hnz
    | none =>
      rw [hf] at hnz
      simp only [if_true]
      exact ih (fun l hl => hv l (List.mem_cons_of_mem _ hl)) (fun l hl => hdx l (List.mem_cons_of_mem _ hl)) hnz

/-- The hypotheses hold for `twoLevels`: a probe in the refined part and one outside of it. -/
example : (∀ l ∈ (twoLevels 1 7).reverse, l.Valid 2) ∧ probeValue (![5 / 4] : Fin 1 → ℚ) (twoLevels 1 7).reverse 0 = 7 ∧
    probeValue (![5 / 2] : Fin 1 → ℚ) (twoLevels 1 7).reverse 0 = 7 ∧ probeValue (![7 / 2] : Fin 1 → ℚ) (twoLevels 1 7).reverse 0 = 8 ∧
    (List.range 4).map (gatherStates 2 (twoLevels 1 7).reverse 2 fun k => if k = 0 then ![5 / 4] else ![7 / 2]) = [7, 8, 1, 1] :=
  ⟨fun l hl => twoLevels_valid 1 2 (by norm_num) (by norm_num) 7 l (List.mem_reverse.1 hl), by decide +kernel, by decide +kernel, by decide +kernel, by decide +kernel⟩

/-- C110, the negation: a fine value that is exactly zero (a fluid at rest) is replaced by the value of the coarse cell. -/
theorem gather_zero_is_replaced : (∀ l ∈ (twoLevels 0 0).reverse, l.Valid 1) ∧ probeValue (![5 / 4] : Fin 1 → ℚ) (twoLevels 0 0).reverse 0 = 0 ∧
    gatherStates 1 (twoLevels 0 0).reverse 1 (fun _ => ![5 / 4]) 0 = 6 :=
  ⟨fun l hl => twoLevels_valid 0 1 (by norm_num) (by norm_num) 0 l (List.mem_reverse.1 hl), by decide +kernel, by decide +kernel⟩

end

end Fub
