import Verif.Model.RegularSpace
import Mathlib.Data.Fin.VecNotation
import Mathlib.Tactic.Ring
import Mathlib.Tactic.Linarith

/-!
# C205: every level of a hierarchy without walls finds its geometry
-/

namespace Fub
variable {n : ℕ} {X : Type}

/-- Coarsening a refined box gives the box back. -/
theorem coarsen_refine (b : ABox n) (r : Index n) (hr : ∀ d, 1 ≤ r d) : (b.refine r).coarsen r = b := by
  ext d
  · simp only [ABox.coarsen, ABox.refine, coarsenIdx]
    exact Int.mul_ediv_cancel _ (by have := hr d; omega)
  · simp only [ABox.coarsen, ABox.refine, coarsenIdx]
    have h := hr d
    rw [show (b.hi d + 1) * r d - 1 = (r d - 1) + b.hi d * r d by ring, Int.add_mul_ediv_right _ _ (by omega), Int.ediv_eq_zero_of_lt (by omega) (by omega)]
    omega

/-- A refined box can be coarsened. -/
theorem refine_coarsenable (b : ABox n) (r : Index n) (hr : ∀ d, 1 ≤ r d) (hb : ∀ d, b.lo d ≤ b.hi d) : (b.refine r).Coarsenable r := by
  refine ⟨fun d => ?_, by rw [coarsen_refine b r hr]⟩
  simp only [ABox.refine]
  have h1 := hr d
  have h2 := hb d
  nlinarith

/-- The geometry of level `k`, refined `k` times. -/
theorem iterate_box (r : Index n) (hr : ∀ d, 1 ≤ r d) (g : Geo n X) (hb : ∀ d, g.domain.lo d ≤ g.domain.hi d) (k : ℕ) :
    (∀ d, ((fun g : Geo n X => g.refine r)^[k] g).domain.lo d ≤ ((fun g : Geo n X => g.refine r)^[k] g).domain.hi d) ∧
    ((fun g : Geo n X => g.refine r)^[k] g).phys = g.phys := by
  induction k with
  | zero => exact ⟨hb, rfl⟩
  | succ k ih =>
    rw [Function.iterate_succ_apply']
    refine ⟨fun d => ?_, ih.2⟩
    have h1 := hr d
    have h2 := ih.1 d
    generalize (fun g : Geo n X => g.refine r)^[k] g = q at h2
    simp only [Geo.refine, ABox.refine]
    nlinarith

/-- Behind the required levels the loop never aborts. -/
theorem regularLevels_tail (ok : ℕ → Bool) (r : Index n) (required : ℕ) : ∀ (fuel ilev : ℕ) (last : SpaceLevel n X), required < ilev →
    ∃ t, regularLevels ok r required fuel ilev last = some t ∧ (∀ x ∈ t, x.1.phys = last.1.phys) ∧ t.length ≤ fuel := by
  intro fuel
  induction fuel with
  | zero => intro ilev last _; exact ⟨[], rfl, by simp, by simp⟩
  | succ fuel ih =>
    intro ilev last h
    have hn : ¬ ilev ≤ required := by omega
    unfold regularLevels
    by_cases hc : last.1.domain.Coarsenable r
    · simp only [hc, not_true, if_false]
      by_cases ho : ok ilev = true
      · obtain ⟨t, ht, hp, hl⟩ := ih (ilev + 1) (last.1.coarsen r, if required < ilev then 0 else last.2 / 2) (by omega)
        simp only [ho, not_true, if_false, ht, Option.map_some]
        exact ⟨_, rfl, by intro x hx; rcases List.mem_cons.1 hx with rfl | hx; exacts [rfl, hp x hx], by simpa using hl⟩
      · simp only [ho, not_false_eq_true, if_true, hn, if_false]
        exact ⟨[], rfl, by simp, by simp⟩
    · simp only [hc, not_false_eq_true, if_true, hn, if_false]
      exact ⟨[], rfl, by simp, by simp⟩

/-- The loop finds the geometries of all coarser levels. -/
theorem regularLevels_spec (ok : ℕ → Bool) (hok : ∀ i, ok i = true) (r : Index n) (hr : ∀ d, 1 ≤ r d) (g : Geo n X) (hb : ∀ d, g.domain.lo d ≤ g.domain.hi d)
    (l : ℕ) : ∀ (j fuel : ℕ), j ≤ fuel → j ≤ l → ∃ t, regularLevels ok r l fuel (l - j + 1) ((fun g : Geo n X => g.refine r)^[j] g, 4 * 2 ^ j) = some t ∧
      (∀ k, k < j → t[j - 1 - k]? = some ((fun g : Geo n X => g.refine r)^[k] g, 4 * 2 ^ k)) ∧ (∀ x ∈ t, x.1.phys = g.phys) ∧ t.length ≤ fuel := by
  intro j
  induction j with
  | zero =>
    intro fuel _ _
    obtain ⟨t, ht, hp, hl⟩ := regularLevels_tail ok r l fuel (l - 0 + 1) (((fun g : Geo n X => g.refine r)^[0] g, 4 * 2 ^ 0) : SpaceLevel n X) (by omega)
    exact ⟨t, ht, by intro k hk; omega, hp, hl⟩
  | succ j ih =>
    intro fuel hf hl
    obtain ⟨m, rfl⟩ : ∃ m, fuel = m + 1 := ⟨fuel - 1, by omega⟩
    obtain ⟨t, ht, hk, hp, hlen⟩ := ih m (by omega) (by omega)
    have hbk := iterate_box r hr g hb j
    have hco : ((fun g : Geo n X => g.refine r)^[j + 1] g).domain.Coarsenable r := by
      rw [Function.iterate_succ_apply']
      exact refine_coarsenable _ r hr hbk.1
    have hcg : ((fun g : Geo n X => g.refine r)^[j + 1] g).coarsen r = (fun g : Geo n X => g.refine r)^[j] g := by
      rw [Function.iterate_succ_apply']
      ext1
      · exact coarsen_refine _ r hr
      · rfl
    have hng : (4 * 2 ^ (j + 1) : ℤ) / 2 = 4 * 2 ^ j := by
      rw [pow_succ, ← mul_assoc]; exact Int.mul_ediv_cancel _ (by norm_num)
    have hnl : ¬ l < l - (j + 1) + 1 := by omega
    unfold regularLevels
    simp only [hco, not_true, if_false, hok, hnl, hcg, hng]
    rw [show l - (j + 1) + 1 + 1 = l - j + 1 by omega, ht]
    refine ⟨_, rfl, fun k hkj => ?_, ?_, by simpa using hlen⟩
    · rcases Nat.lt_succ_iff_lt_or_eq.1 hkj with h | rfl
      · rw [show j + 1 - 1 - k = (j - 1 - k) + 1 by omega, List.getElem?_cons_succ]
        exact hk k h
      · simp
    · intro x hx
      rcases List.mem_cons.1 hx with rfl | hx
      · exact hbk.2
      · exact hp x hx

/-- The first entry with a given box has the geometry of every other entry with this box. -/
theorem spaceFind_eq (s : List (SpaceLevel n X)) (p : X) (hp : ∀ x ∈ s, x.1.phys = p) (x : SpaceLevel n X) (hx : x ∈ s) :
    ∃ y, spaceFind s x.1.domain = some y ∧ y.1 = x.1 := by
  unfold spaceFind
  have : (s.find? fun l => decide (l.1.domain = x.1.domain)).isSome := by
    rw [List.find?_isSome]; exact ⟨x, hx, by simp⟩
  obtain ⟨y, hy⟩ := Option.isSome_iff_exists.1 this
  refine ⟨y, hy, ?_⟩
  have h1 := List.find?_some hy
  have h2 := List.mem_of_find?_eq_some hy
  ext1
  · simpa using h1
  · rw [hp y h2, hp x hx]

/-- One index space. -/
theorem regularSpace_spec (ok : ℕ → Bool) (hok : ∀ i, ok i = true) (r : Index n) (hr : ∀ d, 1 ≤ r d) (g : Geo n X) (hb : ∀ d, g.domain.lo d ≤ g.domain.hi d)
    (l : ℕ) (hl : l ≤ 30) : ∃ s, regularSpace ok ((fun g : Geo n X => g.refine r)^[l] g) r l (l + 1) 4 = some s ∧ s.length ≤ l + 2 ∧
      ∀ k, k ≤ l → s[l - k]? = some ((fun g : Geo n X => g.refine r)^[k] g, 4 * 2 ^ k) ∧
        ∃ y, spaceFind s ((fun g : Geo n X => g.refine r)^[k] g).domain = some y ∧ y.1 = (fun g : Geo n X => g.refine r)^[k] g := by
  obtain ⟨t, ht, hk, hp, hlen⟩ := regularLevels_spec ok hok r hr g hb l l (min 30 (max l (l + 1))) (by omega) le_rfl
  rw [Nat.sub_self, Nat.zero_add] at ht
  have h4 : (max 4 0 : ℤ) = 4 := by norm_num
  refine ⟨((fun g : Geo n X => g.refine r)^[l] g, 4 * 2 ^ l) :: t, ?_, ?_, fun k hkl => ?_⟩
  · unfold regularSpace
    simp only [h4, ht, Option.map_some]
  · simp only [List.length_cons]; omega
  · have hget : (((fun g : Geo n X => g.refine r)^[l] g, (4 * 2 ^ l : ℤ)) :: t)[l - k]? = some ((fun g : Geo n X => g.refine r)^[k] g, 4 * 2 ^ k) := by
      rcases Nat.lt_or_eq_of_le hkl with h | rfl
      · rw [show l - k = (l - 1 - k) + 1 by omega, List.getElem?_cons_succ]
        exact hk k h
      · simp
    refine ⟨hget, spaceFind_eq _ g.phys ?_ (_, 4 * 2 ^ k) (List.mem_of_getElem? hget)⟩
    intro x hx
    rcases List.mem_cons.1 hx with rfl | hx
    · exact (iterate_box r hr g hb l).2
    · exact hp x hx

/-- The loop over the levels. -/
theorem buildRegular_spec (ok : ℕ → Bool) (hok : ∀ i, ok i = true) (r : Index n) (hr : ∀ d, 1 ≤ r d) (g : Geo n X) (hb : ∀ d, g.domain.lo d ≤ g.domain.hi d) :
    ∀ (count level : ℕ), level + count ≤ 31 → ∃ spaces, buildRegular ok r count level ((fun g : Geo n X => g.refine r)^[level] g) = some spaces ∧
      spaces.length = count ∧ ∀ i, i < count → ∃ s, spaces[i]? = some s ∧
        regularSpace ok ((fun g : Geo n X => g.refine r)^[level + i] g) r (level + i) (level + i + 1) 4 = some s := by
  intro count
  induction count with
  | zero => intro level _; exact ⟨[], rfl, rfl, by intro i hi; omega⟩
  | succ count ih =>
    intro level h
    obtain ⟨s, hs, -⟩ := regularSpace_spec ok hok r hr g hb level (by omega)
    obtain ⟨spaces, hsp, hlen, hall⟩ := ih (level + 1) (by omega)
    rw [Function.iterate_succ_apply'] at hsp
    refine ⟨s :: spaces, ?_, by simp [hlen], ?_⟩
    · simp only [buildRegular, hs, Option.bind_some]
      rw [hsp]; rfl
    · intro i hi
      rcases i with _ | i
      · exact ⟨s, by simp, hs⟩
      · obtain ⟨s', h1, h2⟩ := hall i (by omega)
        refine ⟨s', by simpa using h1, ?_⟩
        rw [show level + (i + 1) = level + 1 + i by omega]
        exact h2

/-- The geometries of a hierarchy are the refinements of the coarsest one. -/
theorem hierarchyGeometries_get (r : Index n) (phys : X) : ∀ (count : ℕ) (box : ABox n) (k : ℕ), k < count →
    (hierarchyGeometries r phys count box)[k]? = some ((fun g : Geo n X => g.refine r)^[k] ⟨box, phys⟩) := by
  intro count
  induction count with
  | zero => intro box k hk; omega
  | succ count ih =>
    intro box k hk
    rcases k with _ | k
    · simp [hierarchyGeometries]
    · simp only [hierarchyGeometries, List.getElem?_cons_succ]
      rw [ih _ k (by omega), Function.iterate_succ_apply]
      rfl

/-- **C205** For every domain, every refinement ratio and every number of levels up to 31 `BuildRegularSpace` does not abort and returns one index space per level. Level `l`
finds in its index space its own geometry and those of all coarser levels, exactly as the hierarchy has them, and level `k` is built with `4 · 2^k` ghost cells. At most one further level is
built below the coarsest one. -/
theorem regular_space_levels (ok : ℕ → Bool) (hok : ∀ i, ok i = true) (r cells : Index n) (hr : ∀ d, 1 ≤ r d) (hc : ∀ d, 1 ≤ cells d) (phys : X)
    (levels : ℕ) (h31 : levels ≤ 31) :
    ∃ spaces, buildRegular ok r levels 0 ⟨coarseBox cells, phys⟩ = some spaces ∧ spaces.length = levels ∧
      ∀ l, l < levels → ∃ s, spaces[l]? = some s ∧ s.length ≤ l + 2 ∧
        ∀ k, k ≤ l → ∃ geom, (hierarchyGeometries r phys levels (coarseBox cells))[k]? = some geom ∧ s[l - k]? = some (geom, 4 * 2 ^ k) ∧
          ∃ y, spaceFind s geom.domain = some y ∧ y.1 = geom := by
  have hb : ∀ d, (coarseBox cells).lo d ≤ (coarseBox cells).hi d := by intro d; have := hc d; simp only [coarseBox]; omega
  obtain ⟨spaces, h1, h2, h3⟩ := buildRegular_spec ok hok r hr (⟨coarseBox cells, phys⟩ : Geo n X) hb levels 0 (by omega)
  refine ⟨spaces, h1, h2, fun l hl => ?_⟩
  obtain ⟨s, hs, hreg⟩ := h3 l hl
  rw [Nat.zero_add] at hreg
  obtain ⟨s', hs', hlen, hk⟩ := regularSpace_spec ok hok r hr (⟨coarseBox cells, phys⟩ : Geo n X) hb l (by omega)
  rw [hreg] at hs'
  obtain rfl := Option.some.inj hs'
  exact ⟨s, hs, hlen, fun k hkl => ⟨_, hierarchyGeometries_get r phys levels _ k (by omega), (hk k hkl).1, (hk k hkl).2⟩⟩

/-- **C205** If AMReX cannot build a required coarse level, or the domain cannot be coarsened that often, the constructor aborts: an index space that is returned contains the
required levels (up to the limit of 30). -/
theorem regular_space_required (ok : ℕ → Bool) (r : Index n) (geom : Geo n X) (required maxC : ℕ) (ngrow : ℤ) (hreq : required ≤ 30) (s : List (SpaceLevel n X))
    (h : regularSpace ok geom r required maxC ngrow = some s) : required + 1 ≤ s.length := by
  have key : ∀ (fuel ilev : ℕ) (last : SpaceLevel n X) (t : List (SpaceLevel n X)), required + 1 ≤ ilev + fuel → regularLevels ok r required fuel ilev last = some t →
      required + 1 ≤ ilev + t.length := by
    intro fuel
    induction fuel with
    | zero => intro ilev last t hf ht; omega
    | succ fuel ih =>
      intro ilev last t hf ht
      unfold regularLevels at ht
      by_cases hc : last.1.domain.Coarsenable r
      · simp only [hc, not_true, if_false] at ht
        by_cases ho : ok ilev = true
        · simp only [ho, not_true, if_false, Option.map_eq_some_iff] at ht
          obtain ⟨t', ht', rfl⟩ := ht
          have := ih _ _ _ (by omega) ht'
          simp only [List.length_cons]; omega
        · simp only [ho, not_false_eq_true, if_true] at ht
          by_cases hi : ilev ≤ required
          · simp [hi] at ht
          · omega
      · simp only [hc, not_false_eq_true, if_true] at ht
        by_cases hi : ilev ≤ required
        · simp [hi] at ht
        · omega
  unfold regularSpace at h
  simp only [Option.map_eq_some_iff] at h
  obtain ⟨t, ht, rfl⟩ := h
  have := key _ _ _ _ (by omega) ht
  simp only [List.length_cons]; omega

/-- **C205** A box that belongs to no level of the index space is not found: the code then reads behind the end of its vectors. -/
theorem regular_space_unknown (s : List (SpaceLevel n X)) (dom : ABox n) (h : ∀ x ∈ s, x.1.domain ≠ dom) : spaceFind s dom = none := by
  unfold spaceFind
  rw [List.find?_eq_none]
  intro x hx
  simpa using h x hx

/-- Three levels with ratio (2, 1) over 3 × 4 cells. The base level cannot be coarsened, so no further level is built; the index space of the finest level holds 12 × 4, 6 × 4 and 3 × 4 cells. -/
example : (buildRegular (n := 2) (fun _ => true) ![2, 1] 3 0 ⟨coarseBox ![3, 4], ()⟩).map (fun sp => sp.map fun s => s.map fun x => (x.1.domain.hi 0, x.1.domain.hi 1, x.2)) =
    some [[(2, 3, 4)], [(5, 3, 8), (2, 3, 4)], [(11, 3, 16), (5, 3, 8), (2, 3, 4)]] := by decide +kernel

/-- A further level is built if the base can be coarsened. -/
example : (buildRegular (n := 1) (fun _ => true) ![2] 2 0 ⟨coarseBox ![8], ()⟩).map (fun sp => sp.map fun s => s.map fun x => (x.1.domain.hi 0, x.2)) =
    some [[(7, 4), (3, 0)], [(15, 8), (7, 4), (3, 0)]] := by decide +kernel

/-- The constructor aborts if it is asked for more coarsenings than the domain allows. -/
example : regularSpace (n := 1) (fun _ => true) ⟨coarseBox ![6], ()⟩ ![2] 2 3 4 = none := by decide +kernel

end Fub
