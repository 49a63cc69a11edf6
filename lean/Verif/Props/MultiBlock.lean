import Verif.Model.MultiBlock
import Verif.Props.Average
import Verif.Props.GasMix
import Verif.Props.TurbineBoundary
import Mathlib.Tactic.FieldSimp
import Mathlib.Tactic.Ring
import Mathlib.Tactic.Linarith

/-!
C95 (cross section averages), C96 (coupled states), C97 (connections), C98 (coupled fluxes).
-/

namespace Fub
open Finset
variable {K : Type} [Field K] {n : ℕ}

/-! ### Sums over distributed boxes -/

theorem intersect_comm (a b : IndexBox n) : a.intersect b = b.intersect a := by
  simp only [IndexBox.intersect, max_comm, min_comm]

theorem distributed_sum (f : Index n → K) (box : IndexBox n) (ranks : List (List (IndexBox n))) (h : TilesDisjoint ranks.flatten) (hc : TilesCover box ranks.flatten) :
    (ranks.map fun tiles => tiles.foldl (fun acc tile => (forEachIndex (box.intersect tile)).foldl (fun acc i => acc + f i) acc) 0).sum = ∑ i ∈ box.finset, f i := by
  have hloc : ∀ tiles : List (IndexBox n), ∀ acc : K, tiles.foldl (fun acc tile => (forEachIndex (box.intersect tile)).foldl (fun acc i => acc + f i) acc) acc
      = acc + ((visited box tiles).map f).sum := by
    intro tiles
    induction tiles with
    | nil => intro acc; simp [visited]
    | cons t ts ih =>
      intro acc
      have e : visited box (t :: ts) = forEachIndex (box.intersect t) ++ visited box ts := by simp [visited]
      rw [List.foldl_cons, ih, foldl_add_sum, e, List.map_append, List.sum_append, add_assoc]
  have hall : ∀ ranks : List (List (IndexBox n)), (ranks.map fun tiles => tiles.foldl (fun acc tile => (forEachIndex (box.intersect tile)).foldl (fun acc i => acc + f i) acc) 0).sum
      = ((visited box ranks.flatten).map f).sum := by
    intro ranks
    induction ranks with
    | nil => simp [visited]
    | cons r rs ih =>
      have e : visited box (r :: rs).flatten = visited box r ++ visited box rs.flatten := by simp [visited]
      rw [e, List.map_append, List.sum_append, ← ih, List.map_cons, List.sum_cons, hloc, zero_add]
  rw [hall, ((visited_perm h hc).map _).sum_eq, sum_forEachIndex]

section Average
variable [LinearOrder K] [IsStrictOrderedRing K]

omit [IsStrictOrderedRing K] in
theorem total_volume (alpha : Index (n + 1) → K) (vol : K) (box : IndexBox (n + 1)) (ranks : List (List (IndexBox (n + 1)))) (h : TilesDisjoint ranks.flatten) (hc : TilesCover box ranks.flatten) (x : ℤ) :
    totalVolume alpha vol box ranks x = (∑ i ∈ box.finset with i 0 = x, alpha i) * vol := by
  have := distributed_sum (fun i => if i 0 = x then alpha i * vol else 0) box ranks h hc
  rw [← Finset.sum_filter] at this
  rw [Finset.sum_mul, ← this, totalVolume]
  simp only [localVolume]
  have e : (fun (acc : K) (i : Index (n + 1)) => if i 0 = x then acc + alpha i * vol else acc) = fun acc i => acc + (if i 0 = x then alpha i * vol else 0) := by
    funext acc i; split <;> simp
  rw [e]

/-- **C95.** The average stored for the slice `x` is the mean of the data weighted with the open volume fractions of its cells, however the cells are distributed; a slice without open cells gets zero. -/
theorem slice_average (alpha data : Index (n + 1) → K) {vol : K} (hv : 0 < vol) (ha : ∀ i, 0 ≤ alpha i) (box : IndexBox (n + 1)) (ranks : List (List (IndexBox (n + 1)))) (h : TilesDisjoint ranks.flatten)
    (hc : TilesCover box ranks.flatten) (x : ℤ) :
    sliceAverage alpha data vol box ranks x = (∑ i ∈ box.finset with i 0 = x, alpha i * data i) / ∑ i ∈ box.finset with i 0 = x, alpha i := by
  set T := ∑ i ∈ box.finset with i 0 = x, alpha i with hT
  have := distributed_sum (fun i => if i 0 = x then alpha i / T * data i else 0) box ranks h hc
  rw [← Finset.sum_filter] at this
  have e : (fun (acc : K) (i : Index (n + 1)) => if i 0 = x then (if 0 < alpha i then acc + alpha i * vol / totalVolume alpha vol box ranks (i 0) * data i else acc) else acc)
      = fun acc i => acc + (if i 0 = x then alpha i / T * data i else 0) := by
    funext acc i
    split_ifs with h1 h2
    · rw [h1, total_volume alpha vol box ranks h hc, ← hT, mul_div_mul_right _ _ hv.ne']
    · rw [le_antisymm (not_lt.1 h2) (ha i)]; simp
    · simp
  rw [sliceAverage]
  simp only [localSlice]
  rw [e, this, Finset.sum_div]
  exact Finset.sum_congr rfl fun i _ => by ring

/-- **C95.** It lies between the bounds of the data in the open cells of the slice. -/
theorem slice_average_range (alpha data : Index (n + 1) → K) {vol : K} (hv : 0 < vol) (ha : ∀ i, 0 ≤ alpha i) (box : IndexBox (n + 1)) (ranks : List (List (IndexBox (n + 1))))
    (h : TilesDisjoint ranks.flatten) (hc : TilesCover box ranks.flatten) (x : ℤ) (hopen : ∃ i ∈ box.toSet, i 0 = x ∧ 0 < alpha i) {lo up : K}
    (hd : ∀ i ∈ box.toSet, i 0 = x → 0 < alpha i → lo ≤ data i ∧ data i ≤ up) :
    lo ≤ sliceAverage alpha data vol box ranks x ∧ sliceAverage alpha data vol box ranks x ≤ up := by
  obtain ⟨i0, hi0, hx, hpos⟩ := hopen
  have hT : 0 < ∑ i ∈ box.finset with i 0 = x, alpha i :=
    Finset.sum_pos' (fun i _ => ha i) ⟨i0, Finset.mem_filter.2 ⟨(mem_finset _ _).2 hi0, hx⟩, hpos⟩
  have key : ∀ i ∈ box.finset.filter (fun i => i 0 = x), alpha i * lo ≤ alpha i * data i ∧ alpha i * data i ≤ alpha i * up := by
    intro i hi
    obtain ⟨h1, h2⟩ := Finset.mem_filter.1 hi
    rcases (ha i).eq_or_lt with h0 | h0
    · rw [← h0]; simp
    · obtain ⟨l, u⟩ := hd i ((mem_finset _ _).1 h1) h2 h0
      exact ⟨mul_le_mul_of_nonneg_left l h0.le, mul_le_mul_of_nonneg_left u h0.le⟩
  rw [slice_average alpha data hv ha box ranks h hc, le_div_iff₀ hT, div_le_iff₀ hT, mul_comm lo, mul_comm up, Finset.sum_mul, Finset.sum_mul]
  exact ⟨Finset.sum_le_sum fun i hi => (key i hi).1, Finset.sum_le_sum fun i hi => (key i hi).2⟩

omit [Field K] [LinearOrder K] [IsStrictOrderedRing K] in
/-- **C95.** For connections in the first direction every cell is added to a cell of the reduced box, the one of its own slice; *disagreement*: for the other directions the first index is used as well, and the cell is outside of the reduced box
unless the index is zero. -/
theorem reduced_index (box : IndexBox (n + 1)) (i : Index (n + 1)) (hi : i ∈ box.toSet) :
    (reducedIndex i ∈ (reducedBox box 0).toSet ∧ reducedIndex i 0 = i 0) ∧ ∀ dir : Fin (n + 1), dir ≠ 0 → (reducedIndex i ∈ (reducedBox box dir).toSet ↔ i 0 = 0 ∧ box.lower dir ≤ 0 ∧ 0 < box.upper dir) := by
  have hi' : ∀ d, box.lower d ≤ i d ∧ i d < box.upper d := hi
  refine ⟨⟨?_, by simp [reducedIndex]⟩, fun dir hdir => ?_⟩
  · intro d
    by_cases hd : d = 0
    · subst hd; simpa [reducedIndex, reducedBox] using hi' 0
    · simp [reducedIndex, reducedBox, hd]
  · constructor
    · intro hm
      have hm' : ∀ d, (reducedBox box dir).lower d ≤ reducedIndex i d ∧ reducedIndex i d < (reducedBox box dir).upper d := hm
      have h0 := hm' 0
      have h1 := hm' dir
      simp only [reducedIndex, reducedBox, if_pos, if_neg hdir, if_neg (Ne.symm hdir)] at h0 h1
      exact ⟨by omega, h1⟩
    · rintro ⟨h0, h1⟩ d
      by_cases hd : d = dir
      · subst hd; simpa [reducedIndex, reducedBox, hdir] using h1
      · by_cases hd0 : d = 0
        · subst hd0; simp [reducedIndex, reducedBox, hd, h0]
        · simp [reducedIndex, reducedBox, hd, hd0]

omit [LinearOrder K] [IsStrictOrderedRing K] in
theorem sum_indicator {X : Type} [DecidableEq X] (l : List X) (hl : l.Nodup) (i : X) (c : K) : (l.map fun j => if j = i then c else 0).sum = if i ∈ l then c else 0 := by
  induction l with
  | nil => simp
  | cons a l ih =>
    obtain ⟨h1, h2⟩ := List.nodup_cons.1 hl
    rw [List.map_cons, List.sum_cons, ih h2]
    by_cases ha : a = i
    · subst ha; simp [h1]
    · simp [ha, Ne.symm ha]

omit [LinearOrder K] [IsStrictOrderedRing K] in
/-- **C95.** Every process gets the data of the mirror cells, however they are distributed. -/
theorem gather_mirror (data : Index (n + 1) → K) (box : IndexBox (n + 1)) (ranks : List (List (IndexBox (n + 1)))) (h : TilesDisjoint ranks.flatten) (hc : TilesCover box ranks.flatten)
    (i : Index (n + 1)) (hi : i ∈ box.toSet) : gatherMirror data box ranks i = data i := by
  have := distributed_sum (fun j => if j = i then data i else 0) box ranks h hc
  rw [Finset.sum_ite_eq', if_pos ((mem_finset _ _).2 hi)] at this
  rw [← this, gatherMirror]
  congr 1
  refine List.map_congr_left fun tiles _ => ?_
  congr 1
  funext acc tile
  rw [foldl_add_sum, sum_indicator _ (forEachIndex_spec _).2.2]
  split <;> simp

/-! ### Fluxes -/

omit [IsStrictOrderedRing K] in
/-- **C98.** The flux handed to the tube, times the open area of the boundary, is the sum of the fluxes through the open boundary faces of the plenum, however they are distributed: what leaves one block enters the other. -/
theorem average_flux_conserves (area flux : Index (n + 1) → K) (boundary : IndexBox (n + 1)) (ranks : List (List (IndexBox (n + 1)))) (h : TilesDisjoint ranks.flatten)
    (hc : TilesCover boundary ranks.flatten) (hpos : 0 < ∑ i ∈ boundary.finset, area i) :
    averageFlux area flux boundary ranks * ∑ i ∈ boundary.finset, area i = ∑ i ∈ boundary.finset, area i * flux i := by
  have e1 := distributed_sum area boundary ranks h hc
  have e2 := distributed_sum (fun i => area i * flux i) boundary ranks h hc
  simp only [averageFlux, intersect_comm _ boundary]
  rw [e1, e2, if_pos hpos, div_mul_cancel₀ _ hpos.ne']

omit [IsStrictOrderedRing K] in
/-- **C98.** A boundary without open faces has no flux. -/
theorem average_flux_closed (area flux : Index (n + 1) → K) (boundary : IndexBox (n + 1)) (ranks : List (List (IndexBox (n + 1)))) (h : TilesDisjoint ranks.flatten)
    (hc : TilesCover boundary ranks.flatten) (hz : ∑ i ∈ boundary.finset, area i = 0) : averageFlux area flux boundary ranks = 0 := by
  have e1 := distributed_sum area boundary ranks h hc
  simp only [averageFlux, intersect_comm _ boundary]
  rw [e1, hz, if_neg (lt_irrefl _)]

omit [Field K] [LinearOrder K] [IsStrictOrderedRing K] in
/-- **C98.** At the lower side the faces are exactly the boundary faces of the box. -/
theorem get_boundary_lower (box : IndexBox (n + 1)) (d : Fin (n + 1)) (hne : box.lower d < box.upper d) (f : Index (n + 1)) :
    f ∈ (getBoundary box d 0).toSet ↔ f d = box.lower d ∧ ∀ e, e ≠ d → box.lower e ≤ f e ∧ f e < box.upper e := by
  constructor
  · intro hf
    have hf' : ∀ e, (getBoundary box d 0).lower e ≤ f e ∧ f e < (getBoundary box d 0).upper e := hf
    refine ⟨?_, fun e he => ?_⟩
    · have := hf' d; simp [getBoundary] at this; omega
    · have := hf' e; simpa [getBoundary, he] using this
  · rintro ⟨h1, h2⟩ e
    by_cases he : e = d
    · subst he; simp [getBoundary, h1]
    · simpa [getBoundary, he] using h2 e he

omit [Field K] [LinearOrder K] [IsStrictOrderedRing K] in
/-- **C98, disagreement.** At the upper side they are the lower faces of the last cells: one layer inside of the box, and none of them is a boundary face. -/
theorem get_boundary_upper (box : IndexBox (n + 1)) (d : Fin (n + 1)) (f : Index (n + 1)) (hf : f ∈ (getBoundary box d 1).toSet) : f d = box.upper d - 1 := by
  have hf' : ∀ e, (getBoundary box d 1).lower e ≤ f e ∧ f e < (getBoundary box d 1).upper e := hf
  have := hf' d
  simp [getBoundary] at this
  omega

end Average

/-! ### States -/

variable {d s t : ℕ}

/-- **C96.** A tube state in the plenum keeps its density, momentum, energy, species, scalars and its pressure and speed of sound; it moves only along the first axis. -/
theorem embed_keeps (eq : MixEq) (h : eq.Valid) (q : MixComplete 0 s t) (hq : IsMixState eq q) :
    ∃ q' : MixComplete d s t, embedState d eq q.toMixCons = some q' ∧ IsMixState eq q' ∧ q'.density = q.density ∧ q'.momentum 0 = q.momentum 0 ∧ (∀ i, i ≠ 0 → q'.momentum i = 0) ∧ q'.energy = q.energy ∧
      q'.species = q.species ∧ q'.scalars = q.scalars ∧ q'.pressure = q.pressure := by
  have hr := hq.1
  have hp := hq.2
  have he := hq.3
  obtain ⟨q', e1, e2, e3, e4⟩ := mixComplete_of_energy eq h (⟨q.density, fun i => if i = 0 then q.momentum 0 else 0, q.energy, q.species, q.scalars⟩ : MixCons d s t) q.pressure hr hp (by
    show q.energy = _
    rw [he]
    congr 3
    rw [Finset.sum_eq_single (0 : Fin (d + 1)) (fun i _ hi => by simp [hi]) (by simp)]
    refine (Fin.sum_univ_one _).trans ?_
    simp)
  refine ⟨q', e1, e4, ?_⟩
  have b := congrArg MixCons.momentum e2
  exact ⟨congrArg MixCons.density e2, by rw [b]; simp, fun i hi => by rw [b]; simp [hi], congrArg MixCons.energy e2, congrArg MixCons.species e2, congrArg MixCons.scalars e2, e3⟩

/-- **C96, disagreement.** A plenum state in the tube loses its transversal momentum but keeps the energy: the kinetic energy of the transversal motion appears as pressure. -/
theorem reduce_pressure (eq : MixEq) (h : eq.Valid) (q : MixComplete d s t) (hq : IsMixState eq q) :
    ∃ q' : MixComplete 0 s t, reduceState eq q.toMixCons = some q' ∧ IsMixState eq q' ∧ q'.density = q.density ∧ q'.momentum 0 = q.momentum 0 ∧ q'.energy = q.energy ∧ q'.species = q.species ∧
      q'.scalars = q.scalars ∧ q'.pressure = q.pressure + (eq.gamma - 1) * (eq.Msq * ((∑ i : Fin d, q.momentum i.succ ^ 2) / (2 * q.density))) := by
  have hr := hq.1
  have hp := hq.2
  have he := hq.3
  have g1 : 1 < eq.gamma := h.one_lt
  have hg : eq.gamma - 1 ≠ 0 := by linarith
  have hpos : 0 ≤ (eq.gamma - 1) * (eq.Msq * ((∑ i : Fin d, q.momentum i.succ ^ 2) / (2 * q.density))) :=
    mul_nonneg (by linarith) (mul_nonneg h.msq_pos.le (div_nonneg (Finset.sum_nonneg fun i _ => sq_nonneg _) (by linarith)))
  obtain ⟨q', e1, e2, e3, e4⟩ := mixComplete_of_energy eq h (⟨q.density, fun _ => q.momentum 0, q.energy, q.species, q.scalars⟩ : MixCons 0 s t)
    (q.pressure + (eq.gamma - 1) * (eq.Msq * ((∑ i : Fin d, q.momentum i.succ ^ 2) / (2 * q.density)))) hr (by linarith) (by
    show q.energy = _
    rw [he, Fin.sum_univ_succ]
    have : ∑ _i : Fin (0 + 1), q.momentum 0 ^ 2 = q.momentum 0 ^ 2 := Fin.sum_univ_one _
    show _ = _ + eq.Msq * ((∑ _i : Fin (0 + 1), q.momentum 0 ^ 2) / (2 * q.density))
    rw [this]
    generalize (∑ i : Fin d, q.momentum i.succ ^ 2) = S
    field_simp
    ring)
  refine ⟨q', e1, e4, ?_⟩
  have b := congrArg MixCons.momentum e2
  exact ⟨congrArg MixCons.density e2, by rw [b], congrArg MixCons.energy e2, congrArg MixCons.species e2, congrArg MixCons.scalars e2, e3⟩

/-- **C96.** A tube state that is embedded and reduced again is unchanged. -/
theorem reduce_embed (eq : MixEq) (h : eq.Valid) (q : MixComplete 0 s t) (hq : IsMixState eq q) :
    ((embedState d eq q.toMixCons).bind fun q' => reduceState eq q'.toMixCons) = some q := by
  obtain ⟨q', e1, -, a, b, -, c, dd, e, -⟩ := embed_keeps (d := d) eq h q hq
  rw [e1, Option.bind_some, reduceState, a, b, c, dd, e]
  have hm : (fun _ : Fin (0 + 1) => q.momentum 0) = q.momentum := by
    funext i; exact congrArg q.momentum (Fin.eq_zero (show Fin 1 from i)).symm
  rw [hm]
  exact (mix_cons_roundtrip eq h q hq).1

/-- **C96.** The `k`-th ghost cell behind the interface gets the data of the `k`-th cell of the other block before the interface, on both sides of both blocks, and this cell belongs to the mirror. -/
theorem ghost_sources (plo phi tlo thi gcw k : ℤ) (hk : 0 ≤ k) (hkg : k < gcw) :
    (tubeGhostSource plo phi tlo thi gcw 1 (tlo - 1 - k) = phi - k ∧ (ghostBox tlo thi gcw (flipSide 1)).1 ≤ tlo - 1 - k ∧ tlo - 1 - k ≤ (ghostBox tlo thi gcw (flipSide 1)).2 ∧
      (mirrorBox plo phi gcw 1).1 ≤ phi - k ∧ phi - k ≤ (mirrorBox plo phi gcw 1).2) ∧
    (tubeGhostSource plo phi tlo thi gcw 0 (thi + 1 + k) = plo + k ∧ (ghostBox tlo thi gcw (flipSide 0)).1 ≤ thi + 1 + k ∧ thi + 1 + k ≤ (ghostBox tlo thi gcw (flipSide 0)).2 ∧
      (mirrorBox plo phi gcw 0).1 ≤ plo + k ∧ plo + k ≤ (mirrorBox plo phi gcw 0).2) ∧
    (plenumGhostSource plo phi tlo thi gcw 1 (phi + 1 + k) = tlo + k ∧ (ghostBox plo phi gcw 1).1 ≤ phi + 1 + k ∧ phi + 1 + k ≤ (ghostBox plo phi gcw 1).2 ∧
      (mirrorBox tlo thi gcw (flipSide 1)).1 ≤ tlo + k ∧ tlo + k ≤ (mirrorBox tlo thi gcw (flipSide 1)).2) ∧
    (plenumGhostSource plo phi tlo thi gcw 0 (plo - 1 - k) = thi - k ∧ (ghostBox plo phi gcw 0).1 ≤ plo - 1 - k ∧ plo - 1 - k ≤ (ghostBox plo phi gcw 0).2 ∧
      (mirrorBox tlo thi gcw (flipSide 0)).1 ≤ thi - k ∧ thi - k ≤ (mirrorBox tlo thi gcw (flipSide 0)).2) := by
  simp only [tubeGhostSource, plenumGhostSource, mirrorBox, ghostBox, flipSide]
  simp
  omega

/-- **C96.** A ghost cell gets the converted mirror state if its density is positive and keeps its old state otherwise. -/
theorem block_ghost_fill (eq : MixEq) (h : eq.Valid) (q : MixComplete 0 s t) (hq : IsMixState eq q) (old : MixComplete d s t) (u : MixCons 0 s t) (hu : u.density ≤ 0) :
    (∃ q', fillGhost (embedState d eq) (fun u => u.density) old q.toMixCons = some q' ∧ q'.pressure = q.pressure ∧ q'.density = q.density) ∧
    fillGhost (embedState d eq) (fun u => u.density) old u = some old := by
  obtain ⟨q', e1, -, a, -, -, -, -, -, e⟩ := embed_keeps (d := d) eq h q hq
  exact ⟨⟨q', by rw [fillGhost, if_pos hq.1, e1], e, a⟩, by rw [fillGhost, if_neg (not_lt.2 hu)]⟩

/-! ### Connections -/

theorem flatMap_const_drop {A : Type} (L : List A) (k l : ℕ) (hl : l < k) : (((List.range k).flatMap fun _ => L).drop (l * L.length)).take L.length = L := by
  have e : ∀ m : ℕ, ((List.range (m + 1)).flatMap fun _ => L) = L ++ (List.range m).flatMap fun _ => L := by
    intro m
    rw [List.range_succ_eq_map, List.flatMap_cons, List.flatMap_map]
  induction l generalizing k with
  | zero =>
    obtain ⟨m, rfl⟩ : ∃ m, k = m + 1 := ⟨k - 1, by omega⟩
    rw [e]; simp
  | succ l ih =>
    obtain ⟨m, rfl⟩ : ∃ m, k = m + 1 := ⟨k - 1, by omega⟩
    rw [e, show (l + 1) * L.length = L.length + l * L.length by ring, List.drop_append, List.drop_of_length_le (by omega), List.nil_append, show L.length + l * L.length - L.length = l * L.length by omega]
    exact ih m (by omega)

theorem flatMap_const_length {A : Type} (L : List A) (k : ℕ) : ((List.range k).flatMap fun _ => L).length = k * L.length := by
  simp [List.length_flatMap]

/-- The numbers of the connections of a block. -/
def ownConnections (conns : List BlockConn) (sel : BlockConn → ℕ) (id : ℕ) : List ℕ := (conns.zipIdx.filter fun c => decide (sel c.1 = id)).map Prod.snd

theorem own_length (conns : List BlockConn) (sel : BlockConn → ℕ) (id : ℕ) : (ownConnections conns sel id).length = (conns.filter fun c => decide (sel c = id)).length := by
  rw [ownConnections, List.length_map]
  have : conns.filter (fun c => decide (sel c = id)) = (conns.zipIdx.filter fun c => decide (sel c.1 = id)).map Prod.fst := by
    conv_lhs => rw [← List.zipIdx_map_fst 0 conns, List.filter_map]
    rfl
  rw [this, List.length_map]

/-- **C97.** On every level the block has exactly one condition for each of its connections. -/
theorem block_conditions (conns : List BlockConn) (sel : BlockConn → ℕ) (id nlevel level : ℕ) (hl : level < nlevel) :
    ((blockConditions conns sel id nlevel).drop (level * (ownConnections conns sel id).length)).take (ownConnections conns sel id).length = ownConnections conns sel id ∧
    (blockConditions conns sel id nlevel).length = nlevel * (ownConnections conns sel id).length :=
  ⟨flatMap_const_drop _ _ _ hl, flatMap_const_length _ _⟩

theorem block_updates_eq (conns : List BlockConn) (sel : BlockConn → ℕ) (id nlevel level : ℕ) (hl : level < nlevel) (hne : ownConnections conns sel id ≠ []) :
    blockUpdates conns sel id nlevel level =
      some ((((conns.zipIdx).zip (ownConnections conns sel id)).filter fun p => decide (sel p.1.1 = id)).map fun p => (p.2, p.1.2)) := by
  have hpos : 0 < (ownConnections conns sel id).length := List.length_pos_iff.2 hne
  obtain ⟨e1, e2⟩ := block_conditions conns sel id nlevel level hl
  simp only [blockUpdates, ← own_length]
  rw [if_neg hpos.ne', e2, Nat.mul_div_cancel _ hpos, if_pos hl, e1]

theorem zip_self_filter (own rest : List BlockConn) (sel : BlockConn → ℕ) (id k : ℕ) (ho : ∀ c ∈ own, sel c = id) :
    (((own ++ rest).zipIdx k).zip (List.range' k own.length)).filter (fun p => decide (sel p.1.1 = id)) = (own.zipIdx k).zip (List.range' k own.length) := by
  induction own generalizing k with
  | nil => simp
  | cons c own ih =>
    have hc := ho c (by simp)
    simp only [List.cons_append, List.zipIdx_cons, List.length_cons, List.range'_succ, List.zip_cons_cons]
    rw [List.filter_cons_of_pos (by simp [hc]), ih (k + 1) fun c hc => ho c (by simp [hc])]

/-- **C97.** If the connections of the block are the first ones of the list, every one of its conditions is updated with the blocks of its own connection. -/
theorem block_updates_prefix (own rest : List BlockConn) (sel : BlockConn → ℕ) (id nlevel level : ℕ) (hl : level < nlevel) (hne : own ≠ []) (ho : ∀ c ∈ own, sel c = id) (hr : ∀ c ∈ rest, sel c ≠ id) :
    blockUpdates (own ++ rest) sel id nlevel level = some ((List.range own.length).map fun k => (k, k)) := by
  have hown : ownConnections (own ++ rest) sel id = List.range' 0 own.length := by
    rw [ownConnections, List.zipIdx_append, List.filter_append]
    have e1 : (own.zipIdx).filter (fun c => decide (sel c.1 = id)) = own.zipIdx := by
      rw [List.filter_eq_self]
      rintro ⟨c, k⟩ hc
      exact decide_eq_true (ho c (List.fst_mem_of_mem_zipIdx hc))
    have e2 : (rest.zipIdx (0 + own.length)).filter (fun c => decide (sel c.1 = id)) = [] := by
      rw [List.filter_eq_nil_iff]
      rintro ⟨c, k⟩ hc
      simpa using hr c (List.fst_mem_of_mem_zipIdx hc)
    rw [e1, e2, List.append_nil, List.zipIdx_map_snd]
  have hpos : 0 < own.length := List.length_pos_iff.2 hne
  rw [block_updates_eq _ _ _ _ _ hl (by rw [hown]; intro hc; have := congrArg List.length hc; simp at this; exact hne this), hown, zip_self_filter own rest sel id 0 ho]
  congr 1
  refine List.ext_getElem (by simp) fun i h1 h2 => ?_
  simp

/-- **C97, disagreement.** Only the first connections of the list, as many as the block has, are used: a connection of the block behind them never updates a condition. -/
theorem block_updates_missed (conns : List BlockConn) (sel : BlockConn → ℕ) (id nlevel level : ℕ) {l : List (ℕ × ℕ)} (hu : blockUpdates conns sel id nlevel level = some l) (k : ℕ)
    (hk : (conns.filter fun c => decide (sel c = id)).length ≤ k) : ∀ p ∈ l, p.2 ≠ k := by
  simp only [blockUpdates] at hu
  split_ifs at hu with h1 h2
  injection hu with hu
  subst hu
  intro p hp
  obtain ⟨q, hq, rfl⟩ := List.mem_map.1 hp
  have hq' := (List.mem_filter.1 hq).1
  obtain ⟨i, hi, e⟩ := List.mem_iff_getElem.1 hq'
  rw [List.length_zip, List.length_take] at hi
  rw [List.getElem_zip, List.getElem_zipIdx] at e
  rw [← e]
  simp only
  omega

/-- **C97, disagreement.** A block without connections divides by zero. -/
theorem block_updates_none (conns : List BlockConn) (sel : BlockConn → ℕ) (id nlevel level : ℕ) (h : ∀ c ∈ conns, sel c ≠ id) : blockUpdates conns sel id nlevel level = none := by
  have : conns.filter (fun c => decide (sel c = id)) = [] := by
    rw [List.filter_eq_nil_iff]; intro c hc; simpa using h c hc
  simp [blockUpdates, this]

/-- **C97.** A copy keeps the tubes and the feedback function, and the plena if there are at least as many tubes; *disagreement*: with fewer tubes than plena some plena are lost, and the reference state function is always lost. -/
theorem copy_block_context {T P F C : Type} (c : BlockContext T P F C) :
    (copyBlockContext c).tubes = c.tubes ∧ (copyBlockContext c).feedback = c.feedback ∧ (c.plena.length ≤ c.tubes.length → (copyBlockContext c).plena = c.plena) ∧
    (c.tubes.length < c.plena.length → (copyBlockContext c).plena.length = c.tubes.length ∧ (copyBlockContext c).plena ≠ c.plena) ∧ (∀ f, c.ebReference = some f → copyBlockContext c ≠ c) := by
  refine ⟨by simp [copyBlockContext], rfl, fun h => by simp [copyBlockContext, h], fun h => ?_, fun f hf e => ?_⟩
  · have : (copyBlockContext c).plena.length = c.tubes.length := by simp [copyBlockContext]; omega
    exact ⟨this, fun e => by rw [e] at this; omega⟩
  · have := congrArg BlockContext.ebReference e
    rw [hf] at this; exact absurd this (by simp [copyBlockContext])

/-! ### Concrete cases -/

/-- Two slices of a two-dimensional box on two processes; one cell is covered. -/
example : let alpha : Index 2 → ℚ := fun i => if i 0 = 1 ∧ i 1 = 0 then 0 else if i 1 = 0 then 1 / 2 else 1
    let data : Index 2 → ℚ := fun i => i 0 * 10 + i 1 * 3
    let ranks : List (List (IndexBox 2)) := [[⟨![0, 0], ![2, 1]⟩], [⟨![0, 1], ![2, 3]⟩]]
    sliceAverage alpha data (1 / 8) ⟨![0, 0], ![2, 2]⟩ ranks 0 = 2 ∧ sliceAverage alpha data (1 / 8) ⟨![0, 0], ![2, 2]⟩ ranks 1 = 13 ∧
    gatherMirror data ⟨![0, 0], ![2, 2]⟩ ranks ![1, 1] = 13 := by
  decide +kernel

/-- Fluxes through three faces with different open areas. -/
example : averageFlux (fun i : Index 2 => if i 1 = 0 then (1 / 2 : ℚ) else 1) (fun i => i 1 + 1) (getBoundary ⟨![0, 0], ![4, 3]⟩ 0 0) [[⟨![0, 0], ![5, 2]⟩], [⟨![0, 2], ![5, 3]⟩]] = 11 / 5 := by
  decide +kernel

/-- Tube 1 has only the connection 1 and is never updated; in the list `t0, t1, t1` the condition of the second connection of the tube 1 is updated with the blocks of its first one. -/
example : blockUpdates [⟨0, 0⟩, ⟨1, 0⟩] BlockConn.tube 1 2 0 = some [] ∧ blockUpdates [⟨0, 0⟩, ⟨1, 0⟩, ⟨1, 1⟩] BlockConn.tube 1 1 0 = some [(2, 1)] ∧
    blockUpdates [⟨0, 0⟩, ⟨1, 0⟩] BlockConn.plenum 0 2 1 = some [(0, 0), (1, 1)] := by
  decide +kernel

end Fub
