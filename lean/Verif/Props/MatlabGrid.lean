import Verif.Spec.MatlabGrid
import Verif.Props.GridOutput

/-!
C201: the Matlab files of a cut-cell domain.
-/

namespace Fub

section
variable {n : ℕ} {K : Type} [Field K] [LinearOrder K]

theorem matFillFold (dom : ABox n) (r : Index n) (g : ℕ → Index n → K) (L : List ℕ) (hL : 0 ∉ L) (fab : ℕ → Index n → K) (c : ℕ) (i : Index n) :
    L.foldl (matFillComp dom r g) fab c i = if c ∈ L ∧ matVisited dom i ∧ fab 0 i = 0 then g c (coarsenIdx r i) else fab c i := by
  induction L generalizing fab with
  | nil => simp
  | cons a L ih =>
    rw [List.foldl_cons, ih (fun h => hL (List.mem_cons_of_mem _ h))]
    have ha : (0 : ℕ) ≠ a := fun h => hL (h ▸ List.mem_cons_self)
    have h0 : matFillComp dom r g fab a 0 i = fab 0 i := if_neg fun h => ha h.1
    rw [h0]
    by_cases hz : matVisited dom i ∧ fab 0 i = 0
    · by_cases hc : c ∈ L
      · simp only [hc, hz, and_self, if_true, List.mem_cons, or_true]
      · by_cases hca : c = a
        · subst hca
          rw [if_neg fun h => hc h.1, if_pos ⟨List.mem_cons_self, hz⟩]
          exact if_pos ⟨rfl, hz⟩
        · simp only [hc, hca, List.mem_cons, or_self, false_and, if_false]
          exact if_neg fun h => hca h.1
    · simp only [hz, and_false, if_false]
      exact if_neg fun h => hz h.2

theorem matFillAll (dom : ABox n) (r : Index n) (g : ℕ → Index n → K) (ncomp : ℕ) (fab : ℕ → Index n → K) (c : ℕ) (hc : c < ncomp) (i : Index n) :
    matFillComp dom r g ((List.range' 1 (ncomp - 1)).foldl (matFillComp dom r g) fab) 0 c i
      = if matVisited dom i ∧ fab 0 i = 0 then g c (coarsenIdx r i) else fab c i := by
  have h0 : (0 : ℕ) ∉ List.range' 1 (ncomp - 1) := by simp
  have e0 : (List.range' 1 (ncomp - 1)).foldl (matFillComp dom r g) fab 0 i = fab 0 i := by rw [matFillFold _ _ _ _ h0]; simp
  have e := matFillFold dom r g _ h0 fab c i
  change (if c = 0 ∧ matVisited dom i ∧ (List.range' 1 (ncomp - 1)).foldl (matFillComp dom r g) fab 0 i = 0 then _ else (List.range' 1 (ncomp - 1)).foldl (matFillComp dom r g) fab c i) = _
  rw [e0, e]
  by_cases hz : matVisited dom i ∧ fab 0 i = 0
  · by_cases hc0 : c = 0
    · rw [if_pos ⟨hc0, hz⟩, if_pos hz]
    · have hm : c ∈ List.range' 1 (ncomp - 1) := by rw [List.mem_range'_1]; omega
      rw [if_neg fun h => hc0 h.1, if_pos ⟨hm, hz⟩, if_pos hz]
  · rw [if_neg fun h => hz h.2, if_neg fun h => hz h.2, if_neg hz]

/-- The cell below a visited cell is visited on the coarser level. -/
theorem visited_coarsen (c f : ABox n) (r : Index n) (h : DomRefines c f r) (i : Index n) (hi : matVisited f i) : matVisited c (coarsenIdx r i) := by
  refine ⟨fun d => ?_, fun d hd => ?_⟩
  · obtain ⟨hr, hl, hu⟩ := h d
    have := hi.1 d
    refine ⟨?_, ?_⟩
    · show c.lo d ≤ i d / r d
      rw [Int.le_ediv_iff_mul_le hr]
      nlinarith [this.1]
    · show i d / r d ≤ c.hi d
      rw [← Int.lt_add_one_iff, Int.ediv_lt_iff_lt_mul hr]
      nlinarith [this.2]
  · obtain ⟨hr, hl, _⟩ := h d
    show i d / r d = c.lo d
    rw [hi.2 d hd, hl]
    exact Int.mul_ediv_cancel_left _ (ne_of_gt hr)

/-- The composed grid, cell by cell: a visited cell has the value of the finest level that covers it; any other cell has the value of the finest level of the hierarchy, or zero where this level has no patch. Hypotheses: disjoint patches on each level and a component zero that does not vanish in any patch. -/
theorem mat_compose_exact (ranks ncomp : ℕ) (cs : List (MatLevel n K)) (l : MatLevel n K) (hv : ∀ m ∈ l :: cs, m.lev.Valid ranks) (hnest : MatNested (l :: cs))
    (hnz : ∀ m ∈ l :: cs, ∀ p ∈ m.lev.patches, ∀ i, p.box.Has i → p.val 0 i ≠ 0) :
    ∃ fab, matLevels ranks ncomp (l :: cs).reverse = some fab ∧ ∀ c < ncomp, ∀ i,
      (matVisited l.dom i → fab c i = finestValue ((l :: cs).map (·.lev)) c i) ∧
      (¬ matVisited l.dom i → fab c i = finestValue [l.lev] c i) := by
  induction cs generalizing l with
  | nil =>
    refine ⟨_, rfl, fun c hc i => ?_⟩
    have hvl := hv l List.mem_cons_self
    have hcov : ∀ p ∈ l.lev.patches, p.box.Has i → matStep ranks ncomp none l c i = p.val c i :=
      fun p hp hi => gathered_covered ranks l.lev hvl p hp (fun _ _ _ => 0) c i hi fun _ _ => rfl
    have hunc : (∀ p ∈ l.lev.patches, ¬p.box.Has i) → matStep ranks ncomp none l c i = 0 :=
      fun h => (gathered_uncovered ranks l.lev (fun _ _ _ => 0) c i h).trans (reduceSum_zero ranks)
    have key : matStep ranks ncomp none l c i = finestValue [l.lev] c i := by
      unfold finestValue
      cases hf : l.lev.patches.find? fun p => p.box.Has i with
      | some p => exact hcov p (List.mem_of_find?_eq_some hf) (by simpa using List.find?_some hf)
      | none => exact hunc (by simpa using hf)
    exact ⟨fun _ => key, fun _ => key⟩
  | cons m cs ih =>
    have hfold : matLevels ranks ncomp (l :: m :: cs).reverse = some (matStep ranks ncomp (matLevels ranks ncomp (m :: cs).reverse) l) := by
      unfold matLevels
      rw [List.reverse_cons, List.foldl_append]
      rfl
    obtain ⟨g, hg, hgv⟩ := ih m (fun k hk => hv k (List.mem_cons_of_mem _ hk)) hnest.2 (fun k hk => hnz k (List.mem_cons_of_mem _ hk))
    refine ⟨_, hfold, fun c hc i => ?_⟩
    rw [hg]
    have hvl := hv l List.mem_cons_self
    have hnl := hnz l List.mem_cons_self
    set fab : ℕ → Index n → K := fun c i => reduceSum ranks fun rank => localFab l.lev.patches rank (fun _ _ => 0) c i with hfab
    have hcov : ∀ p ∈ l.lev.patches, p.box.Has i → ∀ c, fab c i = p.val c i :=
      fun p hp hi c => gathered_covered ranks l.lev hvl p hp (fun _ _ _ => 0) c i hi fun _ _ => rfl
    have hunc : (∀ p ∈ l.lev.patches, ¬p.box.Has i) → ∀ c, fab c i = 0 :=
      fun h c => (gathered_uncovered ranks l.lev (fun _ _ _ => 0) c i h).trans (reduceSum_zero ranks)
    have hstep : matStep ranks ncomp (some g) l c i = if matVisited l.dom i ∧ fab 0 i = 0 then g c (coarsenIdx l.lev.ratio i) else fab c i :=
      matFillAll l.dom l.lev.ratio g ncomp fab c hc i
    rw [hstep]
    refine ⟨fun hvis => ?_, fun hvis => ?_⟩
    · have hcoarse := (hgv c hc (coarsenIdx l.lev.ratio i)).1 (visited_coarsen _ _ _ hnest.1 i hvis)
      rw [List.map_cons]
      unfold finestValue
      cases hf : l.lev.patches.find? fun p => p.box.Has i with
      | some p =>
        have hi : p.box.Has i := by simpa using List.find?_some hf
        have hp := List.mem_of_find?_eq_some hf
        rw [if_neg fun h => hnl p hp i hi ((hcov p hp hi 0).symm.trans h.2), hcov p hp hi c]
      | none =>
        have h : ∀ p ∈ l.lev.patches, ¬p.box.Has i := by simpa using hf
        rw [if_pos ⟨hvis, hunc h 0⟩, hcoarse]
    · rw [if_neg fun h => hvis h.1]
      unfold finestValue
      cases hf : l.lev.patches.find? fun p => p.box.Has i with
      | some p => exact hcov p (List.mem_of_find?_eq_some hf) (by simpa using List.find?_some hf) c
      | none => exact hunc (by simpa using hf) c

end

/-! ### Reading the file -/

/-- Number of cells of a box. -/
def boxCells {n : ℕ} (b : ABox n) : ℕ := ((List.finRange n).map b.len).prod

theorem loopRange_getElem (l u : ℤ) (k : ℕ) (h : k < (u - l).toNat) : (loopRange l u)[k]? = some (l + k) := by
  simp [loopRange, h]

theorem flatMap_pos {α β : Type} (L : List α) (f : α → List β) (m : ℕ) (hm : ∀ a ∈ L, (f a).length = m) (k j : ℕ) (a : α) (ha : L[k]? = some a) (hj : j < m) :
    (L.flatMap f)[j + m * k]? = (f a)[j]? := by
  induction L generalizing k with
  | nil => simp at ha
  | cons b L ih =>
    have hb : (f b).length = m := hm b List.mem_cons_self
    rw [List.flatMap_cons]
    cases k with
    | zero =>
      simp only [List.getElem?_cons_zero, Option.some.injEq] at ha
      subst ha
      rw [List.getElem?_append_left (by omega)]
      simp
    | succ k =>
      rw [List.getElem?_cons_succ] at ha
      have e : j + m * (k + 1) = m + (j + m * k) := by ring
      rw [List.getElem?_append_right (by rw [hb, e]; omega), hb, e, Nat.add_sub_cancel_left]
      exact ih (fun a ha => hm a (List.mem_cons_of_mem _ ha)) k ha

theorem flatMap_len {α β : Type} (L : List α) (f : α → List β) (m : ℕ) (hm : ∀ a ∈ L, (f a).length = m) : (L.flatMap f).length = m * L.length := by
  induction L with
  | nil => simp
  | cons b L ih =>
    rw [List.flatMap_cons, List.length_append, hm b List.mem_cons_self, ih fun a ha => hm a (List.mem_cons_of_mem _ ha), List.length_cons]
    ring

theorem columnPos_snoc (ls os : List ℕ) (h : ls.length = os.length) (l o : ℕ) : columnPos (ls ++ [l]) (os ++ [o]) = columnPos ls os + ls.prod * o := by
  induction ls generalizing os with
  | nil =>
    cases os with
    | nil => simp [columnPos]
    | cons a os => simp at h
  | cons a ls ih =>
    cases os with
    | nil => simp at h
    | cons b os =>
      simp only [List.cons_append, columnPos, List.prod_cons]
      rw [ih os (by simpa using h)]
      ring

theorem columnPos_lt (ls os : List ℕ) (h : List.Forall₂ (fun o l => o < l) os ls) : columnPos ls os < ls.prod := by
  induction h with
  | nil => simp [columnPos]
  | @cons o l os ls hol _ ih =>
    simp only [columnPos, List.prod_cons]
    calc o + l * columnPos ls os < l + l * columnPos ls os := by omega
      _ = l * (columnPos ls os + 1) := by ring
      _ ≤ l * ls.prod := Nat.mul_le_mul_left _ ih

theorem finRange_snoc (n : ℕ) {α : Type} (f : Fin (n + 1) → α) : (List.finRange (n + 1)).map f = (List.finRange n).map (fun d => f d.castSucc) ++ [f (Fin.last n)] := by
  rw [List.finRange_succ_last, List.map_append, List.map_map]
  rfl

theorem offsets_lt {n : ℕ} (b : ABox n) (i : Index n) (hi : b.Has i) : List.Forall₂ (fun o l => o < l) (offsets b i) ((List.finRange n).map b.len) := by
  unfold offsets
  rw [List.forall₂_map_left_iff, List.forall₂_map_right_iff]
  refine List.forall₂_same.mpr fun d _ => ?_
  have := hi d
  unfold ABox.len
  omega

theorem cells_length {n : ℕ} (b : ABox n) : (forEachIndex b.toIndexBox).length = boxCells b := by
  induction n with
  | zero => simp [forEachIndex, boxCells]
  | succ n ih =>
    let b' : ABox n := ⟨Fin.init b.lo, Fin.init b.hi⟩
    have hb' : (⟨Fin.init b.toIndexBox.lower, Fin.init b.toIndexBox.upper⟩ : IndexBox n) = b'.toIndexBox := rfl
    unfold forEachIndex
    rw [hb', flatMap_len _ _ (boxCells b') (by intro a _; rw [List.length_map]; exact ih b')]
    unfold boxCells
    rw [finRange_snoc, List.prod_append]
    have h1 : (loopRange (b.toIndexBox.lower (Fin.last n)) (b.toIndexBox.upper (Fin.last n))).length = b.len (Fin.last n) := by
      simp [loopRange, ABox.toIndexBox, ABox.len]
    rw [h1, List.prod_singleton]
    rfl

/-- The cells of a box lie in column-major order. -/
theorem cells_position {n : ℕ} (b : ABox n) (i : Index n) (hi : b.Has i) :
    (forEachIndex b.toIndexBox)[columnPos ((List.finRange n).map b.len) (offsets b i)]? = some i := by
  induction n with
  | zero =>
    simp only [forEachIndex, List.finRange_zero, List.map_nil, columnPos, List.getElem?_cons_zero, Option.some.injEq]
    exact Subsingleton.elim _ _
  | succ n ih =>
    let b' : ABox n := ⟨Fin.init b.lo, Fin.init b.hi⟩
    have hi' : b'.Has (Fin.init i) := fun d => hi d.castSucc
    have hb' : (⟨Fin.init b.toIndexBox.lower, Fin.init b.toIndexBox.upper⟩ : IndexBox n) = b'.toIndexBox := rfl
    have h1 : (List.finRange (n + 1)).map b.len = (List.finRange n).map b'.len ++ [b.len (Fin.last n)] := finRange_snoc n b.len
    have h2 : offsets b i = offsets b' (Fin.init i) ++ [(i (Fin.last n) - b.lo (Fin.last n)).toNat] := finRange_snoc n _
    rw [h1, h2, columnPos_snoc _ _ (by simp [offsets])]
    unfold forEachIndex
    rw [hb']
    have hl := hi (Fin.last n)
    have hk : (loopRange (b.toIndexBox.lower (Fin.last n)) (b.toIndexBox.upper (Fin.last n)))[(i (Fin.last n) - b.lo (Fin.last n)).toNat]? = some (i (Fin.last n)) := by
      rw [loopRange_getElem _ _ _ (by simp only [ABox.toIndexBox]; omega)]
      simp only [ABox.toIndexBox, Option.some.injEq]
      omega
    have hpos := columnPos_lt _ _ (offsets_lt b' (Fin.init i) hi')
    rw [flatMap_pos _ _ _ (by intro a _; rw [List.length_map]; exact cells_length b') _ _ _ hk hpos, List.getElem?_map, ih b' (Fin.init i) hi']
    simp only [Option.map_some, Option.some.injEq]
    exact Fin.snoc_init_self i

section
variable {n : ℕ} {K : Type} [Field K] [LinearOrder K]

/-- A reader of the files gets for the offsets of a cell and a component the value of the grid there, the coordinates are those of the centre of the cell, and the binary file has as many numbers as the header says. -/
theorem mat_file_reads (l : MatLevel n K) (ncomp : ℕ) (fab : ℕ → Index n → K) (t : K) (cycle : ℤ) :
    (∀ i, l.dom.Has i → ∀ c < ncomp, (matFile l ncomp fab t cycle).read (offsets l.dom i) c = some (fab c i)) ∧
    (∀ i, l.dom.Has i → (matFile l ncomp fab t cycle).place (offsets l.dom i) = (List.finRange n).map fun d => l.lev.lo d + ((i d : K) + 1 / 2) * l.lev.dx d) ∧
    (matFile l ncomp fab t cycle).bin.length = (matFile l ncomp fab t cycle).size.prod ∧
    (matFile l ncomp fab t cycle).t = t ∧ (matFile l ncomp fab t cycle).cycle = cycle := by
  have hlen : ∀ c ∈ List.range ncomp, ((forEachIndex l.dom.toIndexBox).map (fab c)).length = boxCells l.dom := by
    intro c _; rw [List.length_map]; exact cells_length l.dom
  refine ⟨fun i hi c hc => ?_, fun i hi => ?_, ?_, rfl, rfl⟩
  · unfold MatFile.read matFile
    simp only
    rw [columnPos_snoc _ _ (by simp [offsets])]
    change (List.flatMap (fun c => List.map (fab c) (forEachIndex l.dom.toIndexBox)) (List.range ncomp))[columnPos ((List.finRange n).map l.dom.len) (offsets l.dom i) + boxCells l.dom * c]? = _
    rw [flatMap_pos _ _ _ hlen c _ c (by simp [hc]) (columnPos_lt _ _ (offsets_lt l.dom i hi)), List.getElem?_map, cells_position l.dom i hi]
    rfl
  · unfold MatFile.place matFile offsets matCenter
    simp only
    rw [List.zipWith_map, List.zipWith_self, List.zipWith_map, List.zipWith_self]
    apply List.map_congr_left
    intro d _
    have hk : (((i d - l.dom.lo d).toNat : ℕ) : K) = (i d : K) - (l.dom.lo d : K) := by
      have h := hi d
      have e : (((i d - l.dom.lo d).toNat : ℕ) : ℤ) = i d - l.dom.lo d := by omega
      rw [← Int.cast_natCast, e, Int.cast_sub]
    rw [hk]
    ring
  · unfold matFile
    simp only
    rw [flatMap_len _ _ _ hlen, List.prod_append]
    simp [boxCells]

/-- The header names the binary file: its name resolved in the directory of the header is `name.bin`, and it has no directory itself. -/
theorem mat_data_file (name : List Char) :
    ∃ dir, name = dir ++ (matDataFile name).dropLast.dropLast.dropLast.dropLast ∧ matBinFile name = dir ++ matDataFile name ∧ '/' ∉ matDataFile name := by
  have h : name = (name.reverse.dropWhile (· ≠ '/')).reverse ++ (name.reverse.takeWhile (· ≠ '/')).reverse := by
    rw [← List.reverse_append, List.takeWhile_append_dropWhile, List.reverse_reverse]
  refine ⟨(name.reverse.dropWhile (· ≠ '/')).reverse, ?_, ?_, ?_⟩
  · have : (matDataFile name).dropLast.dropLast.dropLast.dropLast = (name.reverse.takeWhile (· ≠ '/')).reverse := by
      unfold matDataFile
      generalize (name.reverse.takeWhile (· ≠ '/')).reverse = s
      simp [List.dropLast_append_of_ne_nil, List.dropLast]
    rw [this]; exact h
  · unfold matBinFile matDataFile
    rw [← List.append_assoc, ← h]
  · unfold matDataFile
    simp only [List.mem_append, List.mem_reverse, not_or]
    refine ⟨fun hm => ?_, by decide⟩
    have h2 := List.all_takeWhile (l := name.reverse) (p := fun x => decide (x ≠ '/'))
    rw [List.all_eq_true] at h2
    have := h2 _ hm
    simp at this

/-- C201 in at most two dimensions. The files of a hierarchy: for each cell of the finest domain and each component a reader finds the value of the finest level that covers the cell, at the coordinates of its centre. -/
theorem matlab_grid_partial (hn : n ≤ 2) (ranks ncomp : ℕ) (cs : List (MatLevel n K)) (l : MatLevel n K) (hv : ∀ m ∈ l :: cs, m.lev.Valid ranks) (hnest : MatNested (l :: cs))
    (hnz : ∀ m ∈ l :: cs, ∀ p ∈ m.lev.patches, ∀ i, p.box.Has i → p.val 0 i ≠ 0) (t : K) (cycle : ℤ) :
    ∃ f, writeMatlabGrid ranks ncomp (l :: cs).reverse t cycle = some f ∧ f.t = t ∧ f.cycle = cycle ∧ f.bin.length = f.size.prod ∧
      ∀ i, l.dom.Has i → (f.place (offsets l.dom i) = (List.finRange n).map fun d => l.lev.lo d + ((i d : K) + 1 / 2) * l.lev.dx d) ∧
        ∀ c < ncomp, f.read (offsets l.dom i) c = some (finestValue ((l :: cs).map (·.lev)) c i) := by
  obtain ⟨fab, hfab, hval⟩ := mat_compose_exact ranks ncomp cs l hv hnest hnz
  have hlast : (l :: cs).reverse.getLast? = some l := by simp
  obtain ⟨h1, h2, h3, h4, h5⟩ := mat_file_reads l ncomp fab t cycle
  refine ⟨matFile l ncomp fab t cycle, by simp only [writeMatlabGrid, hfab, hlast], h4, h5, h3, fun i hi => ⟨h2 i hi, fun c hc => ?_⟩⟩
  rw [h1 i hi c hc, (hval c hc i).1 ⟨hi, fun d hd => by omega⟩]

/-- C201 in any dimension, what the files hold: in the lowest plane of the third coordinate the value of the finest level that covers the cell, elsewhere the value of the finest level of the hierarchy or zero. -/
theorem matlab_grid_planes (ranks ncomp : ℕ) (cs : List (MatLevel n K)) (l : MatLevel n K) (hv : ∀ m ∈ l :: cs, m.lev.Valid ranks) (hnest : MatNested (l :: cs))
    (hnz : ∀ m ∈ l :: cs, ∀ p ∈ m.lev.patches, ∀ i, p.box.Has i → p.val 0 i ≠ 0) (t : K) (cycle : ℤ) :
    ∃ f, writeMatlabGrid ranks ncomp (l :: cs).reverse t cycle = some f ∧ ∀ i, l.dom.Has i → ∀ c < ncomp,
      ((∀ d : Fin n, 2 ≤ d.val → i d = l.dom.lo d) → f.read (offsets l.dom i) c = some (finestValue ((l :: cs).map (·.lev)) c i)) ∧
      ((∃ d : Fin n, 2 ≤ d.val ∧ i d ≠ l.dom.lo d) → f.read (offsets l.dom i) c = some (finestValue [l.lev] c i)) := by
  obtain ⟨fab, hfab, hval⟩ := mat_compose_exact ranks ncomp cs l hv hnest hnz
  have hlast : (l :: cs).reverse.getLast? = some l := by simp
  refine ⟨matFile l ncomp fab t cycle, by simp only [writeMatlabGrid, hfab, hlast], fun i hi c hc => ⟨fun hp => ?_, fun hp => ?_⟩⟩
  · rw [(mat_file_reads l ncomp fab t cycle).1 i hi c hc, (hval c hc i).1 ⟨hi, hp⟩]
  · rw [(mat_file_reads l ncomp fab t cycle).1 i hi c hc, (hval c hc i).2 ?_]
    rintro ⟨_, h⟩
    obtain ⟨d, hd, hne⟩ := hp
    exact hne (h d hd)

end

/-- Two levels of a domain with `2 * 1 * k` coarse cells with the values 5; the fine patch has one cell in the corner with the value 7. -/
def matTwo2 : List (MatLevel 2 ℚ) :=
  [⟨⟨![0, 0], ![3, 1]⟩, ⟨[⟨1, ⟨![0, 0], ![1, 1]⟩, fun c _ => if c = 0 then 7 else 70⟩], ![2, 2], ![0, 0], ![1 / 2, 1 / 2]⟩⟩,
   ⟨⟨![0, 0], ![1, 0]⟩, ⟨[⟨0, ⟨![0, 0], ![1, 0]⟩, fun c i => if c = 0 then 5 else 50 + i 0⟩], ![1, 1], ![0, 0], ![1, 1]⟩⟩]

/-- The same in three dimensions. -/
def matTwo3 : List (MatLevel 3 ℚ) :=
  [⟨⟨![0, 0, 0], ![3, 1, 1]⟩, ⟨[⟨0, ⟨![0, 0, 0], ![1, 1, 1]⟩, fun _ _ => 7⟩], ![2, 2, 2], ![0, 0, 0], ![1 / 2, 1 / 2, 1 / 2]⟩⟩,
   ⟨⟨![0, 0, 0], ![1, 0, 0]⟩, ⟨[⟨0, ⟨![0, 0, 0], ![1, 0, 0]⟩, fun _ _ => 5⟩], ![1, 1, 1], ![0, 0, 0], ![1, 1, 1]⟩⟩]

/-- The hypotheses of `matlab_grid_partial` hold for `matTwo2` on two ranks, and the file shows both levels. -/
example : (∀ m ∈ matTwo2, m.lev.Valid 2) ∧ MatNested matTwo2 ∧ (∀ m ∈ matTwo2, ∀ p ∈ m.lev.patches, ∀ i, p.box.Has i → p.val 0 i ≠ 0) ∧
    (writeMatlabGrid 2 2 matTwo2.reverse 3 4).map (fun f => (f.size, f.bin, f.x0)) = some ([4, 2, 2], [7, 7, 5, 5, 7, 7, 5, 5, 70, 70, 51, 51, 70, 70, 51, 51], [1 / 4, 1 / 4]) := by
  refine ⟨?_, ⟨?_, trivial⟩, ?_, by decide +kernel⟩
  · intro m hm
    simp only [matTwo2, List.mem_cons, List.not_mem_nil, or_false] at hm
    rcases hm with rfl | rfl <;>
    · refine ⟨fun p hp q hq _ _ _ => ?_, fun p hp => ?_⟩
      · simp only [List.mem_cons, List.not_mem_nil, or_false] at hp hq; rw [hp, hq]
      · simp only [List.mem_cons, List.not_mem_nil, or_false] at hp; rw [hp]; norm_num
  · intro d; fin_cases d <;> decide
  · intro m hm p hp i _
    simp only [matTwo2, List.mem_cons, List.not_mem_nil, or_false] at hm
    rcases hm with rfl | rfl <;>
    · simp only [List.mem_cons, List.not_mem_nil, or_false] at hp
      subst hp
      norm_num

/-- C201 is false in three dimensions: the cell (2, 0, 1) of the fine domain lies in a coarse cell with the value 5 and in no fine patch; the file has zero there, and 5 in the plane below. -/
theorem matlab_grid_3d_wrong : (∀ m ∈ matTwo3, m.lev.Valid 1) ∧ MatNested matTwo3 ∧ finestValue (matTwo3.map (·.lev)) 0 ![2, 0, 1] = 5 ∧
    (writeMatlabGrid 1 1 matTwo3.reverse 0 0).map (fun f => (f.size, f.read [2, 0, 1] 0, f.read [2, 0, 0] 0)) = some ([4, 2, 2, 1], some 0, some 5) := by
  refine ⟨?_, ⟨?_, trivial⟩, by decide +kernel, by decide +kernel⟩
  · intro m hm
    simp only [matTwo3, List.mem_cons, List.not_mem_nil, or_false] at hm
    rcases hm with rfl | rfl <;>
    · refine ⟨fun p hp q hq _ _ _ => ?_, fun p hp => ?_⟩
      · simp only [List.mem_cons, List.not_mem_nil, or_false] at hp hq; rw [hp, hq]
      · simp only [List.mem_cons, List.not_mem_nil, or_false] at hp; rw [hp]; norm_num
  · intro d; fin_cases d <;> decide

end Fub
