import Verif.Spec.JointFlux
import Verif.Props.MultiBlock
import Mathlib.Algebra.BigOperators.Intervals

/-! C192: the fluxes at the joints of tubes and plena. -/

namespace Fub
variable {K : Type} [Field K] [LinearOrder K] {n : ℕ}

theorem foldl_mul_prod (l : List ℤ) (a : ℤ) : l.foldl (fun f r => f * r) a = a * l.prod := by
  induction l generalizing a with
  | nil => simp
  | cons r l ih => simp [ih, mul_assoc]

omit [LinearOrder K] in
theorem joint_face_eq (g : JointLevel K n) (c : JointConn n) : (c.tube, jointFace (g.tubeRatios c.tube) c.tubeLo c.tubeHi c.side) = meetsAt g c := by
  unfold jointFace meetsAt
  split <;> simp [foldl_mul_prod]

theorem refine_to_level (ratios : List (Index (n + 1))) (box : IndexBox (n + 1)) (d : Fin (n + 1)) :
    (refineJointBox ratios box).lower d = box.lower d * (ratios.map fun r => r d).prod ∧ (refineJointBox ratios box).upper d = box.upper d * (ratios.map fun r => r d).prod := by
  unfold refineJointBox
  induction ratios generalizing box with
  | nil => simp
  | cons r l ih =>
    rw [List.foldl_cons]
    have h := ih ⟨fun d => box.lower d * r d, fun d => box.upper d * r d⟩
    rw [h.1, h.2]
    simp [mul_assoc]

theorem joint_step_off (g : JointLevel K n) (dir : Fin (n + 1)) (F : ℕ → ℤ → ℕ → K) (c : JointConn n) (h : ¬ JointActive dir c) : jointStep g dir F c = some F := by
  have h' : ¬ (dir = c.dir ∧ c.off = false) := fun hc => h ⟨hc.1.symm, hc.2⟩
  simp only [jointStep, h', if_false]

theorem joint_step_on (g : JointLevel K n) (dir : Fin (n + 1)) (F F' : ℕ → ℤ → ℕ → K) (c : JointConn n) (h : JointActive dir c) (hs : jointStep g dir F c = some F') :
    ∀ t f k, F' t f k = if (t, f) = meetsAt g c ∧ g.tubeHas t f = true ∧ k < g.tubeComps then jointAverage g c (jointComponent n k) else F t f k := by
  have h' : dir = c.dir ∧ c.off = false := ⟨h.1.symm, h.2⟩
  simp only [jointStep, h', if_true, and_self] at hs
  split at hs
  · injection hs with hs
    subst hs
    intro t f k
    rw [← joint_face_eq]
    simp only [Prod.mk.injEq, and_assoc]
  · exact absurd hs (by simp)

theorem joint_fluxes_cons (g : JointLevel K n) (dir : Fin (n + 1)) (c : JointConn n) (l : List (JointConn n)) (F : ℕ → ℤ → ℕ → K) :
    jointFluxes g dir (c :: l) F = (jointStep g dir F c).bind fun F' => jointFluxes g dir l F' := by
  simp [jointFluxes, List.foldlM_cons]

/-- **C192.** If the coupled blocks have the level, the fluxes are computed. -/
theorem joint_runs (g : JointLevel K n) (dir : Fin (n + 1)) (conns : List (JointConn n)) (F : ℕ → ℤ → ℕ → K) (h : LevelsFit g conns dir) : ∃ F', jointFluxes g dir conns F = some F' := by
  induction conns generalizing F with
  | nil => exact ⟨F, rfl⟩
  | cons c l ih =>
    have hl : LevelsFit g l dir := fun c' hc' => h c' (List.mem_cons_of_mem _ hc')
    rw [joint_fluxes_cons]
    by_cases hc : JointActive dir c
    · have hf := h c List.mem_cons_self hc
      have h' : dir = c.dir ∧ c.off = false := ⟨hc.1.symm, hc.2⟩
      simp only [jointStep, h', hf, if_true, and_self, Option.bind_some]
      rw [← h'.1]
      exact ih _ hl
    · rw [joint_step_off g dir F c hc]
      exact ih F hl

/-- **C192, disagreement.** If only one of two coupled blocks has the level, the fluxes of a missing level are read. -/
theorem joint_missing_level (g : JointLevel K n) (dir : Fin (n + 1)) (conns : List (JointConn n)) (F : ℕ → ℤ → ℕ → K) (c : JointConn n) (hc : c ∈ conns) (hd : JointActive dir c)
    (hm : g.tubeExists c.tube = false ∨ g.plenumExists c.plenum = false) : jointFluxes g dir conns F = none := by
  induction conns generalizing F with
  | nil => exact absurd hc (by simp)
  | cons a l ih =>
    rw [joint_fluxes_cons]
    rcases List.mem_cons.mp hc with rfl | hl
    · have h' : dir = c.dir ∧ c.off = false := ⟨hd.1.symm, hd.2⟩
      have hn : ¬ (g.tubeExists c.tube = true ∧ g.plenumExists c.plenum = true ∧ g.tubeComps + n ≤ g.plenumComps) := by
        rintro ⟨h1, h2, _⟩
        rcases hm with hm | hm
        · rw [hm] at h1; exact absurd h1 (by simp)
        · rw [hm] at h2; exact absurd h2 (by simp)
      have hs : jointStep g dir F c = none := by simp only [jointStep, h', hn, if_true, if_false, and_self]
      rw [hs]; rfl
    · cases hs : jointStep g dir F a with
      | none => rfl
      | some F' => exact ih F' hl

/-- **C192.** A face of a tube at which no coupled connection ends keeps the flux of the tube. -/
theorem joint_frame (g : JointLevel K n) (dir : Fin (n + 1)) (conns : List (JointConn n)) (F F' : ℕ → ℤ → ℕ → K) (hr : jointFluxes g dir conns F = some F') (t : ℕ) (f : ℤ)
    (hm : ∀ c ∈ conns, JointActive dir c → meetsAt g c ≠ (t, f)) (k : ℕ) : F' t f k = F t f k := by
  induction conns generalizing F with
  | nil => simp only [jointFluxes, List.foldlM_nil] at hr; injection hr with hr; rw [hr]
  | cons a l ih =>
    rw [joint_fluxes_cons] at hr
    have hl : ∀ c ∈ l, JointActive dir c → meetsAt g c ≠ (t, f) := fun c hc => hm c (List.mem_cons_of_mem _ hc)
    cases hs : jointStep g dir F a with
    | none => rw [hs] at hr; exact absurd hr (by simp)
    | some F1 =>
      rw [hs] at hr
      rw [ih F1 hr hl]
      by_cases hc : JointActive dir a
      · rw [joint_step_on g dir F F1 a hc hs]
        have hne : ¬ ((t, f) = meetsAt g a ∧ g.tubeHas t f = true ∧ k < g.tubeComps) := fun h => hm a List.mem_cons_self hc h.1.symm
        simp only [hne, if_false]
      · rw [joint_step_off g dir F a hc] at hs
        injection hs with hs
        rw [hs]

/-- A coupled connection that is not overwritten by a later one writes its average. -/
theorem joint_value (g : JointLevel K n) (dir : Fin (n + 1)) (l₁ l₂ : List (JointConn n)) (c : JointConn n) (F F' : ℕ → ℤ → ℕ → K) (hr : jointFluxes g dir (l₁ ++ c :: l₂) F = some F') (hc : JointActive dir c)
    (hl : ∀ c' ∈ l₂, JointActive dir c' → meetsAt g c' ≠ meetsAt g c) (hf : g.tubeHas (meetsAt g c).1 (meetsAt g c).2 = true) (k : ℕ) (hk : k < g.tubeComps) :
    F' (meetsAt g c).1 (meetsAt g c).2 k = jointAverage g c (jointComponent n k) := by
  induction l₁ generalizing F with
  | nil =>
    rw [List.nil_append, joint_fluxes_cons] at hr
    cases hs : jointStep g dir F c with
    | none => rw [hs] at hr; exact absurd hr (by simp)
    | some F1 =>
      rw [hs] at hr
      rw [joint_frame g dir l₂ F1 F' hr (meetsAt g c).1 (meetsAt g c).2 hl, joint_step_on g dir F F1 c hc hs]
      simp only [hf, hk, and_self, if_true]
  | cons a l ih =>
    rw [List.cons_append, joint_fluxes_cons] at hr
    cases hs : jointStep g dir F a with
    | none => rw [hs] at hr; exact absurd hr (by simp)
    | some F1 => rw [hs] at hr; exact ih F1 hr

theorem joint_boundary_lower (g : JointLevel K n) (c : JointConn n) (hside : c.side = 0) (r : Index (n + 1)) (hr : ∀ d, r d = ((g.plenumRatios c.plenum).map fun q => q d).prod) (hpos : 0 < r c.dir)
    (hne : c.plenumBox.lower c.dir < c.plenumBox.upper c.dir) : (jointBoundary g c).toSet = lowerFaces c.plenumBox r c.dir := by
  ext f
  have hb := refine_to_level (g.plenumRatios c.plenum) c.plenumBox
  have := get_boundary_lower (refineJointBox (g.plenumRatios c.plenum) c.plenumBox) c.dir (by rw [(hb c.dir).1, (hb c.dir).2, ← hr]; exact mul_lt_mul_of_pos_right hne hpos) f
  unfold jointBoundary
  rw [hside, this]
  simp only [lowerFaces, Set.mem_setOf_eq, fun d => (hb d).1, fun d => (hb d).2, ← hr]

theorem mem_box_finset (b : IndexBox n) (f : Index n) : f ∈ b.finset ↔ f ∈ b.toSet := by
  simp only [IndexBox.finset, Fintype.mem_piFinset, Finset.mem_Ico]
  exact Iff.rfl

/-- **C192.** What the tube loses through its face at the joint, per open area, is what enters the plenum through the faces of the mirror box: for mass (`0 ↦ 0`), momentum along the tube (`1 ↦ 1`), energy, species and scalars (`k ↦ k + n`), on every level, however the plenum is distributed, in any order of the connections, as long as no later connection ends at the same face. -/
theorem joint_conserves (g : JointLevel K n) (dir : Fin (n + 1)) (l₁ l₂ : List (JointConn n)) (c : JointConn n) (F F' : ℕ → ℤ → ℕ → K) (hr : jointFluxes g dir (l₁ ++ c :: l₂) F = some F') (hc : JointActive dir c)
    (hl : ∀ c' ∈ l₂, JointActive dir c' → meetsAt g c' ≠ meetsAt g c) (hf : g.tubeHas (meetsAt g c).1 (meetsAt g c).2 = true) (hside : c.side = 0) (r : Index (n + 1))
    (hrat : ∀ d, r d = ((g.plenumRatios c.plenum).map fun q => q d).prod) (hpos : 0 < r c.dir) (hne : c.plenumBox.lower c.dir < c.plenumBox.upper c.dir) (faces : Finset (Index (n + 1)))
    (hfaces : ∀ f, f ∈ faces ↔ f ∈ lowerFaces c.plenumBox r c.dir) (hdis : TilesDisjoint (g.tiles c.plenum).flatten) (hcov : ∀ f ∈ faces, ∃ t ∈ (g.tiles c.plenum).flatten, f ∈ t.toSet)
    (hopen : 0 < ∑ f ∈ faces, g.area c.plenum dir f) (k : ℕ) (hk : k < g.tubeComps) :
    F' (meetsAt g c).1 (meetsAt g c).2 k * ∑ f ∈ faces, g.area c.plenum dir f = ∑ f ∈ faces, g.area c.plenum dir f * g.flux c.plenum dir f (if k < 2 then k else k + n) := by
  rw [joint_value g dir l₁ l₂ c F F' hr hc hl hf k hk]
  have hb := joint_boundary_lower g c hside r hrat hpos hne
  have he : faces = (jointBoundary g c).finset := by
    ext f; rw [hfaces, mem_box_finset, hb]
  have hd : c.dir = dir := hc.1
  subst he
  have hcov' : TilesCover (jointBoundary g c) (g.tiles c.plenum).flatten := fun i hi => hcov i ((mem_box_finset _ _).mpr hi)
  have hcomp : jointComponent n k = if k < 2 then k else k + n := by
    unfold jointComponent
    split
    · rfl
    · omega
  rw [← hd] at hopen ⊢
  rw [hcomp]
  exact average_flux_conserves (g.area c.plenum c.dir) (fun i => g.flux c.plenum c.dir i (if k < 2 then k else k + n)) (jointBoundary g c) (g.tiles c.plenum) hdis hcov' hopen

theorem average_missed (area flux : Index (n + 1) → K) (box : IndexBox (n + 1)) (ranks : List (List (IndexBox (n + 1)))) (h : TilesMiss box ranks.flatten) : averageFlux area flux box ranks = 0 := by
  have hz : ∀ (f : Index (n + 1) → K), (ranks.map fun tiles => tiles.foldl (fun acc tile => (forEachIndex (tile.intersect box)).foldl (fun acc i => acc + f i) acc) (0 : K)).sum = 0 := by
    intro f
    have hin : ∀ tile ∈ ranks.flatten, forEachIndex (tile.intersect box) = [] := by
      intro tile ht
      rw [List.eq_nil_iff_forall_not_mem]
      intro i hi
      have hi' := ((forEachIndex_spec (tile.intersect box)).1 i).mp hi
      have h1 : i ∈ tile.toSet ∧ i ∈ box.toSet := by rw [(intersect_spec tile box).1] at hi'; exact hi'
      exact Set.disjoint_left.mp (h tile ht) h1.1 h1.2
    have hfold : ∀ tiles : List (IndexBox (n + 1)), (∀ t ∈ tiles, forEachIndex (t.intersect box) = []) → ∀ acc : K, tiles.foldl (fun acc tile => (forEachIndex (tile.intersect box)).foldl (fun acc i => acc + f i) acc) acc = acc := by
      intro tiles
      induction tiles with
      | nil => intros; rfl
      | cons t ts ih =>
        intro ht acc
        rw [List.foldl_cons, ht t List.mem_cons_self, List.foldl_nil]
        exact ih (fun t' h' => ht t' (List.mem_cons_of_mem _ h')) acc
    apply List.sum_eq_zero
    intro x hx
    obtain ⟨tiles, ht, rfl⟩ := List.mem_map.mp hx
    exact hfold tiles (fun t h' => hin t (List.mem_flatten.mpr ⟨tiles, ht, h'⟩)) 0
  simp only [averageFlux, hz, lt_irrefl, if_false]

/-- **C192, disagreement.** If no patch of the plenum's level reaches the joint, every flux of the tube at the joint becomes zero, the flux of momentum included: the tube feels a vacuum. -/
theorem joint_unreached (g : JointLevel K n) (dir : Fin (n + 1)) (l₁ l₂ : List (JointConn n)) (c : JointConn n) (F F' : ℕ → ℤ → ℕ → K) (hr : jointFluxes g dir (l₁ ++ c :: l₂) F = some F') (hc : JointActive dir c)
    (hl : ∀ c' ∈ l₂, JointActive dir c' → meetsAt g c' ≠ meetsAt g c) (hf : g.tubeHas (meetsAt g c).1 (meetsAt g c).2 = true) (hm : TilesMiss (jointBoundary g c) (g.tiles c.plenum).flatten) (k : ℕ) (hk : k < g.tubeComps) :
    F' (meetsAt g c).1 (meetsAt g c).2 k = 0 := by
  rw [joint_value g dir l₁ l₂ c F F' hr hc hl hf k hk]
  exact average_missed _ _ _ _ hm

/-- **C192.** The first multi-block context leaves the joints with a closed valve alone, and only those. -/
theorem valve_fluxes (g : JointLevel K n) (dir : Fin (n + 1)) (conns : List (JointConn n)) (valves : List (Option ValveState)) (F F' : ℕ → ℤ → ℕ → K) (hr : valveFluxes g dir conns valves F = some F') (t : ℕ) (f : ℤ)
    (hm : ∀ p ∈ conns.zip valves, p.1.dir = dir → meetsAt g p.1 = (t, f) → p.2 = some .closed) (k : ℕ) : F' t f k = F t f k := by
  refine joint_frame g dir _ F F' hr t f ?_ k
  intro c hc hcd he
  obtain ⟨p, hp, rfl⟩ := List.mem_map.mp hc
  have := hm p hp hcd.1 he
  have h2 := hcd.2
  simp [this] at h2

/-- **C192.** The mass (and energy, …) of a tube with the cells `[a, a + N)` changes by its own flux at the left end and by the flux of the plenum at the joint. -/
theorem tube_gain (g : JointLevel K n) (conns : List (JointConn n)) (numeric : (ℕ → ℤ → ℕ → K) → ℕ → ℤ → ℕ → K) (lambda : K) (q F q' F' : ℕ → ℤ → ℕ → K) (hr : tubeStep g conns numeric lambda (q, F) 0 = some (q', F'))
    (t : ℕ) (a : ℤ) (N : ℕ) (hleft : ∀ c ∈ conns, JointActive 0 c → meetsAt g c ≠ (t, a)) (k : ℕ) :
    ∑ i ∈ Finset.range N, q' t (a + i) k = ∑ i ∈ Finset.range N, q t (a + i) k + lambda * (numeric q t a k - F' t (a + N) k) := by
  simp only [tubeStep, if_true] at hr
  cases hj : jointFluxes g 0 conns (numeric q) with
  | none => rw [hj] at hr; exact absurd hr (by simp)
  | some G =>
    rw [hj] at hr
    simp only [Option.map_some, Option.some.injEq, Prod.mk.injEq] at hr
    obtain ⟨h1, h2⟩ := hr
    subst h1 h2
    have hfr := joint_frame g 0 conns (numeric q) G hj t a hleft k
    rw [← hfr]
    induction N with
    | zero => simp
    | succ N ih =>
      rw [Finset.sum_range_succ, Finset.sum_range_succ, ih]
      have : a + ((N + 1 : ℕ) : ℤ) = a + (N : ℤ) + 1 := by push_cast; ring
      rw [this]
      ring

/-- **C192, disagreement.** Tubes that are joined to a plenum in another than the first direction never see its fluxes: whatever the fluxes and the open areas of the plena are, the states of the tubes after a sweep are the same. -/
theorem sideways_uncoupled (g g' : JointLevel K n) (conns : List (JointConn n)) (numeric : (ℕ → ℤ → ℕ → K) → ℕ → ℤ → ℕ → K) (lambda : K) (dirs : List (Fin (n + 1))) (hd : ∀ c ∈ conns, c.dir ≠ 0)
    (hg : LevelsFit g conns = LevelsFit g' conns) (hfit : ∀ d, LevelsFit g conns d) (q F F₂ : ℕ → ℤ → ℕ → K) :
    (tubeSweep g conns numeric lambda dirs (q, F)).map Prod.fst = (tubeSweep g' conns numeric lambda dirs (q, F₂)).map Prod.fst := by
  induction dirs generalizing q F F₂ with
  | nil => rfl
  | cons d l ih =>
    simp only [tubeSweep, List.foldlM_cons] at ih ⊢
    have hfit' : ∀ d, LevelsFit g' conns d := fun d => by rw [← hg]; exact hfit d
    by_cases h0 : d = 0
    · subst h0
      obtain ⟨G, hG⟩ := joint_runs g 0 conns (numeric q) (hfit 0)
      obtain ⟨G', hG'⟩ := joint_runs g' 0 conns (numeric q) (hfit' 0)
      have hGe : G = numeric q := by
        funext t f k
        exact joint_frame g 0 conns _ G hG t f (fun c hc hcd => absurd hcd.1 (hd c hc)) k
      have hGe' : G' = numeric q := by
        funext t f k
        exact joint_frame g' 0 conns _ G' hG' t f (fun c hc hcd => absurd hcd.1 (hd c hc)) k
      subst hGe
      have e1 : tubeStep g conns numeric lambda (q, F) 0 = some (fun t i k => q t i k + lambda * (numeric q t i k - numeric q t (i + 1) k), numeric q) := by
        simp only [tubeStep, if_true, hG, Option.map_some]
      have e2 : tubeStep g' conns numeric lambda (q, F₂) 0 = some (fun t i k => q t i k + lambda * (numeric q t i k - numeric q t (i + 1) k), numeric q) := by
        simp only [tubeStep, if_true, hG', hGe', Option.map_some]
      rw [e1, e2]
      exact ih _ _ _
    · obtain ⟨G, hG⟩ := joint_runs g d conns F (hfit d)
      obtain ⟨G', hG'⟩ := joint_runs g' d conns F₂ (hfit' d)
      have e1 : tubeStep g conns numeric lambda (q, F) d = some (q, G) := by simp only [tubeStep, h0, if_false, hG, Option.map_some]
      have e2 : tubeStep g' conns numeric lambda (q, F₂) d = some (q, G') := by simp only [tubeStep, h0, if_false, hG', Option.map_some]
      rw [e1, e2]
      exact ih _ _ _

/-! ### Examples -/

/-- A tube with four cells before a plenum of 2 × 2 cells in one patch, on a level refined once; pressure one everywhere, the gas at rest; the lower row of the boundary is half open. -/
def restLevel (tiles : List (List (IndexBox 2))) : JointLevel ℚ 1 where
  tubeExists _ := true
  plenumExists _ := true
  tubeRatios _ := [2]
  plenumRatios _ := [fun _ => 2]
  tiles _ := tiles
  area _ _ f := if f 1 = 0 then 1 / 2 else 1
  flux _ _ f k := if k = 1 then 1 + f 0 else if k = 0 then f 1 else 0
  tubeHas _ f := decide (0 ≤ f ∧ f ≤ 4)
  tubeComps := 3
  plenumComps := 4

def restConn (side : ℕ) : JointConn 1 := ⟨0, 0, 2, 0, ⟨fun _ => 0, fun _ => 1⟩, 0, side, false⟩

/-- The hypotheses of `joint_conserves` hold for it. -/
example : LevelsFit (restLevel [[⟨fun _ => 0, ![3, 2]⟩]]) [restConn 0] 0 ∧ meetsAt (restLevel []) (restConn 0) = (0, 4)
    ∧ ((jointFluxes (restLevel [[⟨fun _ => 0, ![3, 2]⟩]]) 0 [restConn 0] fun _ _ _ => 7).map fun F => ((List.range 3).map (F 0 4), (List.range 3).map (F 0 3))) = some ([2 / 3, 1, 0], [7, 7, 7]) := by
  refine ⟨fun c hc _ => ⟨rfl, rfl, by decide⟩, rfl, by decide +kernel⟩

/-- **C192, disagreement.** A plenum at rest whose fine patches do not reach the joint: the last cell of a tube at rest under the same pressure starts to move. -/
theorem joint_rest_wrong : (tubeStep (restLevel [[⟨fun _ => 5, fun _ => 9⟩]]) [restConn 0] (fun _ _ _ k => if k = 1 then 1 else 0) (1 / 2) (fun _ _ k => if k = 1 then 0 else 1, fun _ _ _ => 0) 0).map
    (fun s => ((List.range 3).map (s.1 0 2), (List.range 3).map (s.1 0 3))) = some ([1, 0, 1], [1, 1 / 2, 1]) := by
  decide +kernel

/-- **C192, disagreement.** At the upper side the flux of an inner face of the plenum is taken: its boundary faces carry the flux three, the tube gets two. -/
theorem joint_upper_wrong : ((jointFluxes (restLevel [[⟨fun _ => 0, ![3, 2]⟩]]) 0 [restConn 1] fun _ _ _ => 7).map fun F => F 0 0 1) = some 2 ∧ ∀ y, (restLevel []).flux 0 0 ![2, y] 1 = 3 := by
  refine ⟨by decide +kernel, fun y => by simp [restLevel]; norm_num⟩

/-- A connection in the second direction. -/
example : (∀ c ∈ [{ restConn 0 with dir := 1 }], c.dir ≠ (0 : Fin 2)) ∧ (∀ d, LevelsFit (restLevel [[⟨fun _ => 0, ![3, 2]⟩]]) [{ restConn 0 with dir := 1 }] d) := by
  refine ⟨by simp, fun d c hc _ => ⟨rfl, rfl, by decide⟩⟩

/-- A closed valve at the joint. -/
example : ((valveFluxes (restLevel [[⟨fun _ => 0, ![3, 2]⟩]]) 0 [restConn 0] [some .closed] fun _ _ _ => 7).map fun F => F 0 4 1) = some 7
    ∧ ((valveFluxes (restLevel [[⟨fun _ => 0, ![3, 2]⟩]]) 0 [restConn 0] [some .openAir] fun _ _ _ => 7).map fun F => F 0 4 1) = some 1 := by
  refine ⟨by decide +kernel, by decide +kernel⟩

end Fub
