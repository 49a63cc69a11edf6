import Verif.Lemmas.CutSweep
import Mathlib.Tactic.NormNum

/-! # The sweep over the cells of an embedded boundary: C156, C157 -/

namespace Fub

section
variable {K : Type} [Field K] [LinearOrder K]

/-- What a run of a schedule leaves in the fields of a face whose two cells are swept. -/
theorem sched_fields (F : Rect) (p : SweepInput K) (tiles : List Rect) (sched : List TileOp) (hs : IsSchedule (tilePrograms p.d F 0 tiles) sched) (s : SweepFields K) (r : ℕ → K) (c : ℤ × ℤ)
    (hc : InRect F c) (hn : InRect F (nextIdx p.d c)) (ht : Covered tiles c) :
    (sched.foldl (runTileOp F p) (s, r)).1.regular c = (if 0 < (p.parts c).us then p.reg c else 0) ∧
    (sched.foldl (runTileOp F p) (s, r)).1.regular (nextIdx p.d c) = (if 0 < (p.parts (nextIdx p.d c)).us then p.reg (nextIdx p.d c) else 0) ∧
    (p.beta c < p.beta (nextIdx p.d c) → (sched.foldl (runTileOp F p) (s, r)).1.shL (nextIdx p.d c) = p.sh c) ∧
    (p.beta (nextIdx p.d c) < p.beta c → (sched.foldl (runTileOp F p) (s, r)).1.shR c = p.sh c) ∧
    (p.beta c ≠ p.beta (nextIdx p.d c) → (sched.foldl (runTileOp F p) (s, r)).1.bnd c = p.bnd c) := by
  obtain ⟨tile, htile, hin⟩ := ht
  obtain ⟨t, hlt⟩ := List.mem_iff_getElem?.1 htile
  have hmem : TileOp.sweep t c ∈ sched :=
    (schedule_mem p.d F tiles sched hs _).2 ⟨t, tile, hlt, List.mem_append_left _ (List.mem_map.2 ⟨c, (rect_points _ c).2 ((tile_cells p.d tile F c).2 ⟨hin, hc, hn⟩), rfl⟩)⟩
  have hwhole : ∀ o ∈ sched, o.whole := by
    intro o ho
    obtain ⟨t', tile', _, h⟩ := (schedule_mem p.d F tiles sched hs o).1 ho
    exact (tileProgram_tile _ _ _ _ o h).2
  have reg : ∀ f : ℤ × ℤ, InRect F f → (c = f ∨ nextIdx p.d c = f) → (sched.foldl (runTileOp F p) (s, r)).1.regular f = (if 0 < (p.parts f).us then p.reg f else 0) := by
    intro f hf hcf
    refine foldl_establish (runTileOp F p) (fun st : SweepFields K × (ℕ → K) => st.1.regular f = (if 0 < (p.parts f).us then p.reg f else 0)) sched (s, r) ⟨_, hmem, ?_⟩ ?_
    · intro st
      refine (sweepCell_regular F p st.1 c f).trans ?_
      simp only [hcf, hf, and_self, if_true]
    · intro st o ho h
      cases o with
      | sweep t' c' =>
        refine (sweepCell_regular F p st.1 c' f).trans ?_
        rw [h]
        split_ifs <;> rfl
      | combine t' f' => exact h
      | read t' f' => exact absurd (hwhole _ ho) id
      | write t' f' => exact absurd (hwhole _ ho) id
  refine ⟨reg c hc (Or.inl rfl), reg _ hn (Or.inr rfl), ?_, ?_, ?_⟩
  · intro hb
    refine foldl_establish (runTileOp F p) (fun st : SweepFields K × (ℕ → K) => st.1.shL (nextIdx p.d c) = p.sh c) sched (s, r) ⟨_, hmem, ?_⟩ ?_
    · intro st
      refine (sweepCell_shL F p st.1 c _).trans ?_
      simp only [hb, hn, and_self, if_true]
    · intro st o ho h
      cases o with
      | sweep t' c' =>
        refine (sweepCell_shL F p st.1 c' _).trans ?_
        split_ifs with h1
        · have e := (next_eq p.d c' _).1 h1.1
          have e' := (next_eq p.d c _).1 rfl
          rw [e, ← e']
        · exact h
      | combine t' f' => exact h
      | read t' f' => exact absurd (hwhole _ ho) id
      | write t' f' => exact absurd (hwhole _ ho) id
  · intro hb
    refine foldl_establish (runTileOp F p) (fun st : SweepFields K × (ℕ → K) => st.1.shR c = p.sh c) sched (s, r) ⟨_, hmem, ?_⟩ ?_
    · intro st
      refine (sweepCell_shR F p st.1 c c).trans ?_
      simp only [hb, hc, and_self, if_true]
    · intro st o ho h
      cases o with
      | sweep t' c' =>
        refine (sweepCell_shR F p st.1 c' c).trans ?_
        split_ifs with h1
        · rfl
        · exact h
      | combine t' f' => exact h
      | read t' f' => exact absurd (hwhole _ ho) id
      | write t' f' => exact absurd (hwhole _ ho) id
  · intro hb
    refine foldl_establish (runTileOp F p) (fun st : SweepFields K × (ℕ → K) => st.1.bnd c = p.bnd c) sched (s, r) ⟨_, hmem, ?_⟩ ?_
    · intro st
      refine (sweepCell_bnd F p st.1 c c).trans ?_
      simp only [hb, ne_eq, not_false_iff, and_self, if_true]
    · intro st o ho h
      cases o with
      | sweep t' c' =>
        refine (sweepCell_bnd F p st.1 c' c).trans ?_
        split_ifs with h1
        · rfl
        · exact h
      | combine t' f' => exact h
      | read t' f' => exact absurd (hwhole _ ho) id
      | write t' f' => exact absurd (hwhole _ ho) id

/-- The stabilised flux is combined from the final values of the other fluxes. -/
theorem sched_stable (F : Rect) (p : SweepInput K) (tiles : List Rect) (hne : tiles ≠ []) (sched : List TileOp) (hs : IsSchedule (tilePrograms p.d F 0 tiles) sched) (s : SweepFields K) (r : ℕ → K) (f : ℤ × ℤ)
    (hf : InRect F f) :
    (sched.foldl (runTileOp F p) (s, r)).1.stable f =
      myStable (p.parts f) ((sched.foldl (runTileOp F p) (s, r)).1.regular f) ((sched.foldl (runTileOp F p) (s, r)).1.shL f) ((sched.foldl (runTileOp F p) (s, r)).1.shR f) := by
  obtain ⟨tile, rest, rfl⟩ := List.exists_cons_of_ne_nil hne
  have hmem : TileOp.combine 0 f ∈ sched :=
    (schedule_mem p.d F _ sched hs _).2 ⟨0, tile, rfl, List.mem_append_right _ (List.mem_map.2 ⟨f, (rect_points F f).2 hf, rfl⟩)⟩
  obtain ⟨pre, o, post, he, ho, hpost⟩ := last_split (fun o : TileOp => o.combines f) sched ⟨_, hmem, rfl⟩
  have hsw := sched_no_sweep_after p.d F _ sched pre post o f hf hs he hpost
  have hwhole : ∀ o ∈ post, o.whole := by
    intro o ho
    obtain ⟨t', tile', _, h⟩ := (schedule_mem p.d F _ sched hs o).1 (by rw [he]; simp [ho])
    exact (tileProgram_tile _ _ _ _ o h).2
  cases o with
  | sweep t c => exact absurd ho id
  | read t g => exact absurd ho id
  | write t g => exact absurd ho id
  | combine t g =>
    have hg : g = f := ho
    subst hg
    rw [he, List.foldl_append, List.foldl_cons]
    generalize pre.foldl (runTileOp F p) (s, r) = st
    have key := foldl_keep (runTileOp F p)
      (fun x : SweepFields K × (ℕ → K) => x.1.stable g = (combineFace p st.1 g).stable g ∧ x.1.regular g = st.1.regular g ∧ x.1.shL g = st.1.shL g ∧ x.1.shR g = st.1.shR g)
      post (runTileOp F p st (.combine t g)) ⟨rfl, rfl, rfl, rfl⟩ (by
        rintro x o ho ⟨h1, h2, h3, h4⟩
        obtain ⟨e1, e2, e3, _⟩ := runTileOp_regular F p x o g (hsw o ho)
        exact ⟨(runTileOp_stable F p x o g (hwhole o ho) (hpost o ho)).trans h1, e1.trans h2, e2.trans h3, e3.trans h4⟩)
    obtain ⟨k1, k2, k3, k4⟩ := key
    rw [k1, k2, k3, k4]
    exact Function.update_self _ _ _

theorem parts_left (p : SweepInput K) [IsStrictOrderedRing K] (f : ℤ × ℤ) (h : ¬ p.beta (prevIdx p.d f) < p.beta f) : (p.parts f).sLRel = 0 := by
  unfold SweepInput.parts fillCutCellLane
  rw [shift2_neg]
  dsimp only
  have e : max 0 (p.beta f - p.beta (prevIdx p.d f)) = 0 := max_eq_left (by linarith [not_lt.1 h])
  rw [e, min_eq_left (le_max_left _ _)]
  simp

theorem parts_right (p : SweepInput K) [IsStrictOrderedRing K] (f : ℤ × ℤ) (h : ¬ p.beta (nextIdx p.d f) < p.beta f) : (p.parts f).sRRel = 0 := by
  unfold SweepInput.parts fillCutCellLane
  rw [shift2_one]
  dsimp only
  have e : max 0 (p.beta f - p.beta (nextIdx p.d f)) = 0 := max_eq_left (by linarith [not_lt.1 h])
  rw [e, min_eq_right (le_max_left _ _)]
  simp

theorem parts_us (p : SweepInput K) (f : ℤ × ℤ) (h : ¬ 0 < (p.parts f).us) : (p.parts f).usRel = 0 := by
  have e : (p.parts f).us = 0 := le_antisymm (not_lt.1 h) (le_max_left _ _)
  have : (p.parts f).usRel = (p.parts f).us / (if p.beta f ≤ 0 then 1 else p.beta f) := rfl
  rw [this, e, zero_div]

/-- C156: however the tiles of a patch are swept, one after the other in any order or by threads at the same time, as long as no thread is interrupted while it combines a face, and whatever the arrays held before: the stabilised
flux of a face between two swept cells is the mean of the fluxes at its three parts with respect to their shares, and the fluxes that are read by the update are those of this step. -/
theorem cut_sweep_schedule [IsStrictOrderedRing K] (F : Rect) (p : SweepInput K) (tiles : List Rect) (sched : List TileOp) (hs : IsSchedule (tilePrograms p.d F 0 tiles) sched) (s : SweepFields K) (r : ℕ → K) (f : ℤ × ℤ)
    (hp : InRect F (prevIdx p.d f)) (hf : InRect F f) (hn : InRect F (nextIdx p.d f)) (htp : Covered tiles (prevIdx p.d f)) (htf : Covered tiles f)
    (e : SweepFields K) (he : e = (sched.foldl (runTileOp F p) (s, r)).1) :
    IsFaceMixture p f (e.stable f) ∧
    e.regular f = (if 0 < (p.parts f).us then p.reg f else 0) ∧
    (p.beta (prevIdx p.d f) < p.beta f → e.shL f = p.sh (prevIdx p.d f)) ∧
    (p.beta (nextIdx p.d f) < p.beta f → e.shR f = p.sh f) ∧
    (p.beta f ≠ p.beta (nextIdx p.d f) → e.bnd f = p.bnd f) := by
  have hne : tiles ≠ [] := by
    rintro rfl
    obtain ⟨_, h, _⟩ := htf
    simp at h
  obtain ⟨a1, _, _, a4, a5⟩ := sched_fields F p tiles sched hs s r f hf hn htf
  obtain ⟨_, b2, b3, _, _⟩ := sched_fields F p tiles sched hs s r (prevIdx p.d f) hp (by rw [next_prev]; exact hf) htp
  have st := sched_stable F p tiles hne sched hs s r f hf
  rw [next_prev] at b2 b3
  rw [← he] at a1 a4 a5 b3 st
  refine ⟨?_, a1, b3, a4, a5⟩
  unfold IsFaceMixture
  rw [st]
  unfold myStable
  have c1 : (p.parts f).usRel * e.regular f = (p.parts f).usRel * p.reg f := by
    by_cases h : 0 < (p.parts f).us
    · rw [a1, if_pos h]
    · rw [parts_us p f h, zero_mul, zero_mul]
  have c2 : (p.parts f).sLRel * e.shL f = (p.parts f).sLRel * p.sh (prevIdx p.d f) := by
    by_cases h : p.beta (prevIdx p.d f) < p.beta f
    · rw [b3 h]
    · rw [parts_left p f h, zero_mul, zero_mul]
  have c3 : (p.parts f).sRRel * e.shR f = (p.parts f).sRRel * p.sh f := by
    by_cases h : p.beta (nextIdx p.d f) < p.beta f
    · rw [a4 h]
    · rw [parts_right p f h, zero_mul, zero_mul]
  rw [c1, c2, c3]

/-- C156: the same for the tiles one after the other. -/
theorem cut_sweep_tiles [IsStrictOrderedRing K] (F : Rect) (p : SweepInput K) (tiles : List Rect) (s : SweepFields K) (f : ℤ × ℤ)
    (hp : InRect F (prevIdx p.d f)) (hf : InRect F f) (hn : InRect F (nextIdx p.d f)) (htp : Covered tiles (prevIdx p.d f)) (htf : Covered tiles f)
    (e : SweepFields K) (he : e = sweepPatch F p s tiles) :
    IsFaceMixture p f (e.stable f) ∧
    e.regular f = (if 0 < (p.parts f).us then p.reg f else 0) ∧
    (p.beta (prevIdx p.d f) < p.beta f → e.shL f = p.sh (prevIdx p.d f)) ∧
    (p.beta (nextIdx p.d f) < p.beta f → e.shR f = p.sh f) ∧
    (p.beta f ≠ p.beta (nextIdx p.d f) → e.bnd f = p.bnd f) := by
  refine cut_sweep_schedule F p tiles _ (tile_sequential p.d F tiles) s (fun _ => 0) f hp hf hn htp htf e ?_
  rw [sweepPatch_run]
  exact he

/-- C156: two patches that share a face, and both hold a face more on either side of it, compute the same stabilised flux for it: what one patch loses through the face the other one gains. -/
theorem cut_sweep_patches_agree [IsStrictOrderedRing K] (p : SweepInput K) (F F' : Rect) (tiles tiles' : List Rect) (s s' : SweepFields K) (f : ℤ × ℤ)
    (h : InRect F (prevIdx p.d f) ∧ InRect F f ∧ InRect F (nextIdx p.d f) ∧ Covered tiles (prevIdx p.d f) ∧ Covered tiles f)
    (h' : InRect F' (prevIdx p.d f) ∧ InRect F' f ∧ InRect F' (nextIdx p.d f) ∧ Covered tiles' (prevIdx p.d f) ∧ Covered tiles' f) :
    (sweepPatch F p s tiles).stable f = (sweepPatch F' p s' tiles').stable f := by
  have a := (cut_sweep_tiles F p tiles s f h.1 h.2.1 h.2.2.1 h.2.2.2.1 h.2.2.2.2 _ rfl).1
  have b := (cut_sweep_tiles F' p tiles' s' f h'.1 h'.2.1 h'.2.2.1 h'.2.2.2.1 h'.2.2.2.2 _ rfl).1
  unfold IsFaceMixture at a b
  rw [a, b]

/-- Loads and stores as steps of their own give the same fields if no other thread gets in between. -/
theorem cut_sweep_split (F : Rect) (p : SweepInput K) (sched : List TileOp) (hw : ∀ o ∈ sched, o.whole) (s : SweepFields K) (r r' : ℕ → K) :
    ((sched.flatMap TileOp.split).foldl (runTileOp F p) (s, r)).1 = (sched.foldl (runTileOp F p) (s, r')).1 := by
  induction sched generalizing s r r' with
  | nil => rfl
  | cons o os ih =>
    have ih' := ih fun x hx => hw x (List.mem_cons_of_mem _ hx)
    cases o with
    | sweep t c => exact ih' _ _ _
    | combine t f =>
      simp only [List.flatMap_cons, TileOp.split, List.cons_append, List.nil_append, List.foldl_cons]
      have : (runTileOp F p (runTileOp F p (s, r) (.read t f)) (.write t f)).1 = combineFace p s f := by
        change ({ s with stable := Function.update s.stable f (Function.update r t (myStable (p.parts f) (s.regular f) (s.shL f) (s.shR f)) t) } : SweepFields K) = _
        rw [Function.update_self]
        rfl
      have e : runTileOp F p (runTileOp F p (s, r) (.read t f)) (.write t f) = (combineFace p s f, (runTileOp F p (runTileOp F p (s, r) (.read t f)) (.write t f)).2) := Prod.ext this rfl
      rw [e]
      exact ih' _ _ _
    | read t f => exact absurd (hw _ List.mem_cons_self) id
    | write t f => exact absurd (hw _ List.mem_cons_self) id

/-- C157 (partial: threads that are not interrupted between the loads and the store of a combination): with the steps of the code, the stabilised flux does not depend on the schedule and not on what the arrays held before. -/
theorem cut_sweep_schedule_partial [IsStrictOrderedRing K] (F : Rect) (p : SweepInput K) (tiles : List Rect) (sched sched' : List TileOp) (hs : IsSchedule (tilePrograms p.d F 0 tiles) sched) (hs' : sched' = sched.flatMap TileOp.split)
    (s : SweepFields K) (r : ℕ → K) (f : ℤ × ℤ)
    (hp : InRect F (prevIdx p.d f)) (hf : InRect F f) (hn : InRect F (nextIdx p.d f)) (htp : Covered tiles (prevIdx p.d f)) (htf : Covered tiles f) :
    IsFaceMixture p f ((sched'.foldl (runTileOp F p) (s, r)).1.stable f) := by
  have hw : ∀ o ∈ sched, o.whole := by
    intro o ho
    obtain ⟨t', tile', _, h⟩ := (schedule_mem p.d F tiles sched hs o).1 ho
    exact (tileProgram_tile _ _ _ _ o h).2
  rw [hs', cut_sweep_split F p sched hw s r r]
  exact (cut_sweep_schedule F p tiles sched hs s r f hp hf hn htp htf _ rfl).1

/-- C157: the flux of the shielded part of the first face of a patch is never computed: the array keeps what it held. The same for the last face. -/
theorem cut_sweep_first_face (F : Rect) (p : SweepInput K) (tiles : List Rect) (sched : List TileOp) (hs : IsSchedule (tilePrograms p.d F 0 tiles) sched) (s : SweepFields K) (r : ℕ → K) (f : ℤ × ℤ) :
    (¬ InRect F (prevIdx p.d f) → (sched.foldl (runTileOp F p) (s, r)).1.shL f = s.shL f) ∧
    (¬ InRect F (nextIdx p.d f) → (sched.foldl (runTileOp F p) (s, r)).1.shR f = s.shR f) := by
  have hop : ∀ o ∈ sched, o.whole ∧ ∀ t c, o = .sweep t c → InRect F c ∧ InRect F (nextIdx p.d c) := by
    intro o ho
    obtain ⟨t', tile', _, h⟩ := (schedule_mem p.d F tiles sched hs o).1 ho
    refine ⟨(tileProgram_tile _ _ _ _ o h).2, ?_⟩
    rintro t c rfl
    rcases List.mem_append.1 h with h | h
    · obtain ⟨c', hc', e⟩ := List.mem_map.1 h
      cases e
      exact ((tile_cells p.d tile' F c).1 ((rect_points _ c).1 hc')).2
    · obtain ⟨c', hc', e⟩ := List.mem_map.1 h
      cases e
  constructor
  · intro hf
    refine foldl_keep (runTileOp F p) (fun st : SweepFields K × (ℕ → K) => st.1.shL f = s.shL f) sched (s, r) rfl ?_
    intro st o ho h
    cases o with
    | sweep t c =>
      refine (sweepCell_shL F p st.1 c f).trans ?_
      have : ¬ nextIdx p.d c = f := by
        intro e
        rw [next_eq] at e
        subst e
        exact hf ((hop _ ho).2 t _ rfl).1
      simp only [this, false_and, if_false]
      exact h
    | combine t g => exact h
    | read t g => exact absurd (hop _ ho).1 id
    | write t g => exact absurd (hop _ ho).1 id
  · intro hf
    refine foldl_keep (runTileOp F p) (fun st : SweepFields K × (ℕ → K) => st.1.shR f = s.shR f) sched (s, r) rfl ?_
    intro st o ho h
    cases o with
    | sweep t c =>
      refine (sweepCell_shR F p st.1 c f).trans ?_
      have : ¬ c = f := by
        rintro rfl
        exact hf ((hop _ ho).2 t _ rfl).2
      simp only [this, false_and, if_false]
      exact h
    | combine t g => exact h
    | read t g => exact absurd (hop _ ho).1 id
    | write t g => exact absurd (hop _ ho).1 id

end

/-! ### Cases -/

/-- A line of cells with a face that opens from one half to one: all fluxes are one, so every stabilised flux should be one. -/
def sweepExample : SweepInput ℚ where
  d := true
  beta := fun i => if i.1 ≤ 1 then 1 / 2 else 1
  reg := fun _ => 1
  bnd := fun _ => 1
  sh := fun _ => 1

/-- The arrays after they were allocated. -/
def zeroFields : SweepFields ℚ := ⟨fun _ => 0, fun _ => 0, fun _ => 0, fun _ => 0, fun _ => 0⟩

/-- C157 is false without the additional faces: for two patches that meet in face 2 and hold no faces beyond (`flux_gcw = 0`), the flux out of the left patch is 1 and the flux into the right patch is 1/2. -/
theorem cut_sweep_patches_disagree :
    (sweepPatch ⟨(0, 0), (2, 0)⟩ sweepExample zeroFields [⟨(-4, 0), (5, 0)⟩]).stable (2, 0) = 1 ∧ (sweepPatch ⟨(2, 0), (4, 0)⟩ sweepExample zeroFields [⟨(-2, 0), (7, 0)⟩]).stable (2, 0) = 1 / 2 := by
  decide +kernel

example : (sweepPatch ⟨(-1, 0), (3, 0)⟩ sweepExample zeroFields [⟨(-4, 0), (5, 0)⟩]).stable (2, 0) = (sweepPatch ⟨(1, 0), (5, 0)⟩ sweepExample zeroFields [⟨(-2, 0), (7, 0)⟩]).stable (2, 0) :=
  cut_sweep_patches_agree sweepExample _ _ _ _ _ _ (2, 0) (by refine ⟨by decide, by decide, by decide, ⟨_, List.mem_singleton.2 rfl, by decide⟩, ⟨_, List.mem_singleton.2 rfl, by decide⟩⟩)
    (by refine ⟨by decide, by decide, by decide, ⟨_, List.mem_singleton.2 rfl, by decide⟩, ⟨_, List.mem_singleton.2 rfl, by decide⟩⟩)

/-- The faces of a patch with two lines and its two tiles. -/
def raceFaces : Rect := ⟨(0, 0), (4, 1)⟩

/-- The tiles of the patch. -/
def raceTiles : List Rect := [⟨(-2, 0), (6, 0)⟩, ⟨(-2, 1), (6, 1)⟩]

/-- The thread of the first tile has loaded the fluxes of face (2, 1) when it is interrupted, and stores their combination after the thread of the second tile is done. -/
def raceSchedule : List TileOp :=
  ((tileProgramsSplit true raceFaces raceTiles).getD 0 []).take 19 ++ (tileProgramsSplit true raceFaces raceTiles).getD 1 [] ++ ((tileProgramsSplit true raceFaces raceTiles).getD 0 []).drop 19

/-- C157 is false of the code: the threads combine the faces of each other's tiles, and one that is interrupted between the loads and the store overwrites the stabilised flux with one from the arrays of the last step. -/
theorem cut_sweep_race :
    IsSchedule (tileProgramsSplit true raceFaces raceTiles) raceSchedule ∧
    ((raceSchedule.foldl (runTileOp raceFaces sweepExample) (zeroFields, fun _ => 0)).1.stable (2, 1) = 0) ∧
    ((sweepPatch raceFaces sweepExample zeroFields raceTiles).stable (2, 1) = 1) := by
  refine ⟨?_, by decide +kernel, by decide +kernel⟩
  intro t
  by_cases h0 : t = 0
  · subst h0
    decide +kernel
  by_cases h1 : t = 1
  · subst h1
    decide +kernel
  have e : (tileProgramsSplit true raceFaces raceTiles).getD t [] = [] := by
    have hl : (tileProgramsSplit true raceFaces raceTiles).length = 2 := by decide +kernel
    rw [List.getD_eq_getElem?_getD, List.getElem?_eq_none (by omega)]
    rfl
  rw [e, List.filter_eq_nil_iff]
  have hall : ∀ o ∈ raceSchedule, o.tile < 2 := by decide +kernel
  intro o ho
  have := hall o ho
  simp
  omega

/-- The hypotheses of `cut_sweep_schedule` are met by the tiles in the opposite order. -/
example : IsFaceMixture sweepExample (2, 1) ((sweepPatch raceFaces sweepExample zeroFields raceTiles.reverse).stable (2, 1)) :=
  (cut_sweep_tiles raceFaces sweepExample raceTiles.reverse zeroFields (2, 1) (by decide) (by decide) (by decide) ⟨⟨(-2, 1), (6, 1)⟩, by simp [raceTiles], by decide⟩ ⟨⟨(-2, 1), (6, 1)⟩, by simp [raceTiles], by decide⟩ _ rfl).1

end Fub
