import Verif.Spec.CutSweep
import Mathlib.Tactic.Linarith
import Mathlib.Tactic.Ring

/-! # Lemmas for the sweep over the cells of an embedded boundary -/

namespace Fub

section
variable {K : Type} [Field K] [LinearOrder K]

theorem rect_has (b : Rect) (i : ℤ × ℤ) : b.has i = true ↔ InRect b i := by
  unfold Rect.has InRect
  simp only [Bool.and_eq_true, decide_eq_true_eq, and_assoc]

theorem rect_points (b : Rect) (i : ℤ × ℤ) : i ∈ b.points ↔ InRect b i := by
  unfold Rect.points InRect
  simp only [List.mem_flatMap, List.mem_range, List.mem_map]
  constructor
  · rintro ⟨j, hj, k, hk, rfl⟩
    dsimp only
    omega
  · rintro ⟨⟨h1, h2⟩, h3, h4⟩
    refine ⟨(i.2 - b.lo.2).toNat, by omega, (i.1 - b.lo.1).toNat, by omega, ?_⟩
    apply Prod.ext
    · change b.lo.1 + ((i.1 - b.lo.1).toNat : ℤ) = i.1
      omega
    · change b.lo.2 + ((i.2 - b.lo.2).toNat : ℤ) = i.2
      omega

theorem shift2_one (d : Bool) (i : ℤ × ℤ) : shift2 d 1 i = nextIdx d i := rfl

theorem shift2_neg (d : Bool) (i : ℤ × ℤ) : shift2 d (-1) i = prevIdx d i := rfl

theorem next_prev (d : Bool) (i : ℤ × ℤ) : nextIdx d (prevIdx d i) = i := by
  cases d <;> apply Prod.ext <;> simp [nextIdx, prevIdx]

theorem next_eq (d : Bool) (c f : ℤ × ℤ) : nextIdx d c = f ↔ c = prevIdx d f := by
  constructor
  · rintro rfl
    cases d <;> apply Prod.ext <;> simp [nextIdx, prevIdx]
  · rintro rfl
    exact next_prev d f

theorem tile_cells (d : Bool) (tile F : Rect) (c : ℤ × ℤ) : InRect (tileCells d tile F) c ↔ InRect tile c ∧ InRect F c ∧ InRect F (nextIdx d c) := by
  cases d
  · simp only [tileCells, InRect, nextIdx, Bool.false_eq_true, if_false]
    omega
  · simp only [tileCells, InRect, nextIdx, if_true]
    omega

/-! ### What one cell stores -/

theorem storeRegular_regular (F : Rect) (p : SweepInput K) (s : SweepFields K) (g f : ℤ × ℤ) :
    (storeRegular F p s g).regular f = if g = f ∧ InRect F f then (if 0 < (p.parts f).us then p.reg f else 0) else s.regular f := by
  unfold storeRegular
  by_cases hF : F.has g = true
  · simp only [hF, if_true]
    by_cases hg : g = f
    · subst hg
      have := (rect_has F g).1 hF
      simp only [this, and_self, if_true]
      exact Function.update_self _ _ _
    · simp only [hg, false_and, if_false]
      exact Function.update_of_ne (Ne.symm hg) _ _
  · simp only [hF, if_false, Bool.false_eq_true]
    have : ¬ (g = f ∧ InRect F f) := by
      rintro ⟨rfl, h⟩
      exact hF ((rect_has F g).2 h)
    simp only [this, if_false]

theorem storeRegular_rest (F : Rect) (p : SweepInput K) (s : SweepFields K) (g : ℤ × ℤ) :
    (storeRegular F p s g).shL = s.shL ∧ (storeRegular F p s g).shR = s.shR ∧ (storeRegular F p s g).bnd = s.bnd ∧ (storeRegular F p s g).stable = s.stable := by
  unfold storeRegular
  split_ifs <;> exact ⟨rfl, rfl, rfl, rfl⟩

/-- The fields after the two regular fluxes of a cell. -/
def regularPair (F : Rect) (p : SweepInput K) (s : SweepFields K) (c : ℤ × ℤ) : SweepFields K := storeRegular F p (storeRegular F p s (nextIdx p.d c)) c

theorem regularPair_rest (F : Rect) (p : SweepInput K) (s : SweepFields K) (c : ℤ × ℤ) :
    (regularPair F p s c).shL = s.shL ∧ (regularPair F p s c).shR = s.shR ∧ (regularPair F p s c).bnd = s.bnd ∧ (regularPair F p s c).stable = s.stable := by
  obtain ⟨a1, a2, a3, a4⟩ := storeRegular_rest F p (storeRegular F p s (nextIdx p.d c)) c
  obtain ⟨b1, b2, b3, b4⟩ := storeRegular_rest F p s (nextIdx p.d c)
  exact ⟨a1.trans b1, a2.trans b2, a3.trans b3, a4.trans b4⟩

theorem sweepCell_same (F : Rect) (p : SweepInput K) (s : SweepFields K) (c : ℤ × ℤ) (h : p.beta c = p.beta (nextIdx p.d c)) : sweepCell F p s c = regularPair F p s c := if_pos h

theorem sweepCell_less (F : Rect) (p : SweepInput K) (s : SweepFields K) (c : ℤ × ℤ) (h : p.beta c < p.beta (nextIdx p.d c)) :
    sweepCell F p s c = if F.has (nextIdx p.d c) then { regularPair F p s c with bnd := Function.update (regularPair F p s c).bnd c (p.bnd c), shL := Function.update (regularPair F p s c).shL (nextIdx p.d c) (p.sh c) }
      else { regularPair F p s c with bnd := Function.update (regularPair F p s c).bnd c (p.bnd c) } := by
  refine (if_neg h.ne).trans ((if_pos h).trans ?_)
  rfl

theorem sweepCell_greater (F : Rect) (p : SweepInput K) (s : SweepFields K) (c : ℤ × ℤ) (h : p.beta (nextIdx p.d c) < p.beta c) :
    sweepCell F p s c = if F.has c then { regularPair F p s c with bnd := Function.update (regularPair F p s c).bnd c (p.bnd c), shR := Function.update (regularPair F p s c).shR c (p.sh c) }
      else { regularPair F p s c with bnd := Function.update (regularPair F p s c).bnd c (p.bnd c) } := by
  refine (if_neg h.ne').trans ((if_neg (not_lt.2 h.le)).trans ((if_pos h).trans ?_))
  rfl

theorem sweepCell_regular (F : Rect) (p : SweepInput K) (s : SweepFields K) (c f : ℤ × ℤ) :
    (sweepCell F p s c).regular f = if (c = f ∨ nextIdx p.d c = f) ∧ InRect F f then (if 0 < (p.parts f).us then p.reg f else 0) else s.regular f := by
  have h : (sweepCell F p s c).regular = (regularPair F p s c).regular := by
    rcases lt_trichotomy (p.beta c) (p.beta (nextIdx p.d c)) with h | h | h
    · rw [sweepCell_less F p s c h]; split_ifs <;> rfl
    · rw [sweepCell_same F p s c h]
    · rw [sweepCell_greater F p s c h]; split_ifs <;> rfl
  rw [h, regularPair, storeRegular_regular, storeRegular_regular]
  by_cases hF : InRect F f <;> by_cases h1 : c = f <;> by_cases h2 : nextIdx p.d c = f <;> simp [hF, h1, h2]

theorem sweepCell_shL (F : Rect) (p : SweepInput K) (s : SweepFields K) (c f : ℤ × ℤ) :
    (sweepCell F p s c).shL f = if nextIdx p.d c = f ∧ p.beta c < p.beta f ∧ InRect F f then p.sh c else s.shL f := by
  have e := (regularPair_rest F p s c).1
  by_cases hf : nextIdx p.d c = f
  · subst hf
    rcases lt_trichotomy (p.beta c) (p.beta (nextIdx p.d c)) with h | h | h
    · rw [sweepCell_less F p s c h]
      by_cases h3 : F.has (nextIdx p.d c) = true
      · have h4 := (rect_has _ _).1 h3
        simp only [h3, h, h4, if_true, and_self]
        exact Function.update_self _ _ _
      · have h4 : ¬ InRect F (nextIdx p.d c) := fun x => h3 ((rect_has _ _).2 x)
        simp only [h3, h4, if_false, and_false, Bool.false_eq_true, e]
    · rw [sweepCell_same F p s c h, e]
      simp only [h, lt_irrefl, false_and, and_false, if_false]
    · rw [sweepCell_greater F p s c h]
      simp only [not_lt.2 h.le, false_and, and_false, if_false]
      split_ifs <;> exact congrFun e _
  · simp only [hf, false_and, if_false]
    rcases lt_trichotomy (p.beta c) (p.beta (nextIdx p.d c)) with h | h | h
    · rw [sweepCell_less F p s c h]
      split_ifs
      · exact (Function.update_of_ne (Ne.symm hf) _ _).trans (congrFun e _)
      · exact congrFun e _
    · rw [sweepCell_same F p s c h, e]
    · rw [sweepCell_greater F p s c h]
      split_ifs <;> exact congrFun e _

theorem sweepCell_shR (F : Rect) (p : SweepInput K) (s : SweepFields K) (c f : ℤ × ℤ) :
    (sweepCell F p s c).shR f = if c = f ∧ p.beta (nextIdx p.d f) < p.beta f ∧ InRect F f then p.sh f else s.shR f := by
  have e := (regularPair_rest F p s c).2.1
  by_cases hf : c = f
  · subst hf
    rcases lt_trichotomy (p.beta c) (p.beta (nextIdx p.d c)) with h | h | h
    · rw [sweepCell_less F p s c h]
      simp only [not_lt.2 h.le, false_and, and_false, if_false]
      split_ifs <;> exact congrFun e _
    · rw [sweepCell_same F p s c h, e]
      simp only [h, lt_irrefl, false_and, and_false, if_false]
    · rw [sweepCell_greater F p s c h]
      by_cases h3 : F.has c = true
      · have h4 := (rect_has _ _).1 h3
        simp only [h3, h, h4, if_true, and_self]
        exact Function.update_self _ _ _
      · have h4 : ¬ InRect F c := fun x => h3 ((rect_has _ _).2 x)
        simp only [h3, h4, if_false, and_false, Bool.false_eq_true, e]
  · simp only [hf, false_and, if_false]
    rcases lt_trichotomy (p.beta c) (p.beta (nextIdx p.d c)) with h | h | h
    · rw [sweepCell_less F p s c h]
      split_ifs <;> exact congrFun e _
    · rw [sweepCell_same F p s c h, e]
    · rw [sweepCell_greater F p s c h]
      split_ifs
      · exact (Function.update_of_ne (Ne.symm hf) _ _).trans (congrFun e _)
      · exact congrFun e _

theorem sweepCell_bnd (F : Rect) (p : SweepInput K) (s : SweepFields K) (c f : ℤ × ℤ) :
    (sweepCell F p s c).bnd f = if c = f ∧ p.beta f ≠ p.beta (nextIdx p.d f) then p.bnd f else s.bnd f := by
  have e := (regularPair_rest F p s c).2.2.1
  have key : p.beta c ≠ p.beta (nextIdx p.d c) → (Function.update (regularPair F p s c).bnd c (p.bnd c)) f = if c = f ∧ p.beta f ≠ p.beta (nextIdx p.d f) then p.bnd f else s.bnd f := by
    intro h1
    by_cases hf : c = f
    · subst hf
      simp only [h1, ne_eq, not_false_iff, and_self, if_true]
      exact Function.update_self _ _ _
    · simp only [hf, false_and, if_false]
      exact (Function.update_of_ne (Ne.symm hf) _ _).trans (congrFun e _)
  rcases lt_trichotomy (p.beta c) (p.beta (nextIdx p.d c)) with h | h | h
  · rw [← key h.ne, sweepCell_less F p s c h]
    split_ifs <;> rfl
  · rw [sweepCell_same F p s c h, e]
    have : ¬ (c = f ∧ p.beta f ≠ p.beta (nextIdx p.d f)) := by
      rintro ⟨rfl, h2⟩
      exact h2 h
    simp only [this, if_false]
  · rw [← key h.ne', sweepCell_greater F p s c h]
    split_ifs <;> rfl

theorem sweepCell_stable (F : Rect) (p : SweepInput K) (s : SweepFields K) (c : ℤ × ℤ) : (sweepCell F p s c).stable = s.stable := by
  have e := (regularPair_rest F p s c).2.2.2
  rcases lt_trichotomy (p.beta c) (p.beta (nextIdx p.d c)) with h | h | h
  · rw [sweepCell_less F p s c h]; split_ifs <;> exact e
  · rw [sweepCell_same F p s c h, e]
  · rw [sweepCell_greater F p s c h]; split_ifs <;> exact e

/-! ### Runs -/

theorem foldl_establish {σ α : Type} (g : σ → α → σ) (P : σ → Prop) (l : List α) (s : σ) (hest : ∃ o ∈ l, ∀ s, P (g s o)) (hpres : ∀ s, ∀ o ∈ l, P s → P (g s o)) : P (l.foldl g s) := by
  induction l using List.reverseRecOn with
  | nil => obtain ⟨o, ho, _⟩ := hest; simp at ho
  | append_singleton l a ih =>
    rw [List.foldl_append]
    obtain ⟨o, ho, h⟩ := hest
    rcases List.mem_append.1 ho with ho | ho
    · exact hpres _ a (by simp) (ih ⟨o, ho, h⟩ fun s o ho => hpres s o (by simp [ho]))
    · rw [List.mem_singleton] at ho
      subst ho
      exact h _

theorem foldl_keep {σ α : Type} (g : σ → α → σ) (P : σ → Prop) (l : List α) (s : σ) (h0 : P s) (hpres : ∀ s, ∀ o ∈ l, P s → P (g s o)) : P (l.foldl g s) := by
  induction l using List.reverseRecOn with
  | nil => exact h0
  | append_singleton l a ih =>
    rw [List.foldl_append]
    exact hpres _ a (by simp) (ih fun s o ho => hpres s o (by simp [ho]))

/-- The last element with a property. -/
theorem last_split {α : Type} (P : α → Prop) (l : List α) (h : ∃ x ∈ l, P x) : ∃ pre o post, l = pre ++ o :: post ∧ P o ∧ ∀ x ∈ post, ¬ P x := by
  classical
  induction l using List.reverseRecOn with
  | nil => obtain ⟨x, hx, _⟩ := h; simp at hx
  | append_singleton l a ih =>
    by_cases ha : P a
    · exact ⟨l, a, [], rfl, ha, by simp⟩
    · obtain ⟨x, hx, hp⟩ := h
      rcases List.mem_append.1 hx with hx | hx
      · obtain ⟨pre, o, post, rfl, ho, hn⟩ := ih ⟨x, hx, hp⟩
        refine ⟨pre, o, post ++ [a], by simp, ho, ?_⟩
        intro y hy
        rcases List.mem_append.1 hy with hy | hy
        · exact hn y hy
        · rw [List.mem_singleton] at hy
          subst hy
          exact ha
      · rw [List.mem_singleton] at hx
        subst hx
        exact absurd hp ha

/-- The operation is a sweep or a whole combination. -/
def TileOp.whole : TileOp → Prop
  | .sweep _ _ => True
  | .combine _ _ => True
  | _ => False

/-- The operation stores the stabilised flux of face `f`. -/
def TileOp.combines (f : ℤ × ℤ) : TileOp → Prop
  | .combine _ g => g = f
  | _ => False

/-- The operation sweeps a cell. -/
def TileOp.sweeps : TileOp → Prop
  | .sweep _ _ => True
  | _ => False

theorem runTileOp_regular (F : Rect) (p : SweepInput K) (st : SweepFields K × (ℕ → K)) (o : TileOp) (f : ℤ × ℤ) (h : ¬ o.sweeps) :
    (runTileOp F p st o).1.regular f = st.1.regular f ∧ (runTileOp F p st o).1.shL f = st.1.shL f ∧ (runTileOp F p st o).1.shR f = st.1.shR f ∧ (runTileOp F p st o).1.bnd f = st.1.bnd f := by
  cases o with
  | sweep t c => exact absurd trivial h
  | combine t g => exact ⟨rfl, rfl, rfl, rfl⟩
  | read t g => exact ⟨rfl, rfl, rfl, rfl⟩
  | write t g => exact ⟨rfl, rfl, rfl, rfl⟩

theorem runTileOp_stable (F : Rect) (p : SweepInput K) (st : SweepFields K × (ℕ → K)) (o : TileOp) (f : ℤ × ℤ) (hw : o.whole) (h : ¬ o.combines f) :
    (runTileOp F p st o).1.stable f = st.1.stable f := by
  cases o with
  | sweep t c => exact congrFun (sweepCell_stable F p st.1 c) f
  | combine t g => exact Function.update_of_ne (fun e => h e.symm) _ _
  | read t g => exact absurd hw id
  | write t g => exact absurd hw id

theorem tilePrograms_getD (d : Bool) (F : Rect) (tiles : List Rect) (n t : ℕ) :
    (tilePrograms d F n tiles).getD t [] = match tiles[t]? with
      | some tile => tileProgram d F (n + t) tile
      | none => [] := by
  induction tiles generalizing n t with
  | nil => simp [tilePrograms]
  | cons a as ih =>
    cases t with
    | zero => simp [tilePrograms]
    | succ t =>
      have := ih (n + 1) t
      simp only [tilePrograms, List.getD_cons_succ, List.getElem?_cons_succ, this]
      rw [show n + 1 + t = n + (t + 1) by omega]

theorem tileProgram_tile (d : Bool) (F : Rect) (t : ℕ) (tile : Rect) : ∀ o ∈ tileProgram d F t tile, o.tile = t ∧ o.whole := by
  intro o ho
  rcases List.mem_append.1 ho with h | h
  · obtain ⟨c, _, rfl⟩ := List.mem_map.1 h
    exact ⟨rfl, trivial⟩
  · obtain ⟨c, _, rfl⟩ := List.mem_map.1 h
    exact ⟨rfl, trivial⟩

theorem tilePrograms_flatten (d : Bool) (F : Rect) (tiles : List Rect) (n : ℕ) (o : TileOp) (h : o ∈ (tilePrograms d F n tiles).flatten) : n ≤ o.tile := by
  induction tiles generalizing n with
  | nil => simp [tilePrograms] at h
  | cons a as ih =>
    simp only [tilePrograms, List.flatten_cons, List.mem_append] at h
    rcases h with h | h
    · exact (tileProgram_tile d F n a o h).1.ge
    · have := ih (n + 1) h
      omega

theorem tilePrograms_filter (d : Bool) (F : Rect) (tiles : List Rect) (n t : ℕ) :
    (tilePrograms d F n tiles).flatten.filter (fun o : TileOp => decide (o.tile = n + t)) = (tilePrograms d F n tiles).getD t [] := by
  induction tiles generalizing n t with
  | nil => simp [tilePrograms]
  | cons a as ih =>
    simp only [tilePrograms, List.flatten_cons, List.filter_append]
    cases t with
    | zero =>
      rw [List.filter_eq_self.2 (fun o ho => by simpa using (tileProgram_tile d F n a o ho).1)]
      rw [List.filter_eq_nil_iff.2]
      · simp
      · intro o ho
        have := tilePrograms_flatten d F as (n + 1) o ho
        simp
        omega
    | succ t =>
      rw [List.filter_eq_nil_iff.2]
      · have := ih (n + 1) t
        rw [show n + 1 + t = n + (t + 1) by omega] at this
        simp [this]
      · intro o ho
        have := (tileProgram_tile d F n a o ho).1
        simp
        omega

theorem tile_sequential (d : Bool) (F : Rect) (tiles : List Rect) : IsSchedule (tilePrograms d F 0 tiles) (tilePrograms d F 0 tiles).flatten := by
  intro t
  have := tilePrograms_filter d F tiles 0 t
  rwa [Nat.zero_add] at this

theorem sweepTile_run (F : Rect) (p : SweepInput K) (s : SweepFields K) (r : ℕ → K) (t : ℕ) (tile : Rect) :
    (tileProgram p.d F t tile).foldl (runTileOp F p) (s, r) = (sweepTile F p s tile, r) := by
  have h1 : ∀ (l : List (ℤ × ℤ)) (s : SweepFields K), (l.map fun c : ℤ × ℤ => TileOp.sweep t c).foldl (runTileOp F p) (s, r) = (l.foldl (sweepCell F p) s, r) := by
    intro l
    induction l with
    | nil => intro s; rfl
    | cons a l ih => intro s; exact ih _
  have h2 : ∀ (l : List (ℤ × ℤ)) (s : SweepFields K), (l.map fun c : ℤ × ℤ => TileOp.combine t c).foldl (runTileOp F p) (s, r) = (l.foldl (combineFace p) s, r) := by
    intro l
    induction l with
    | nil => intro s; rfl
    | cons a l ih => intro s; exact ih _
  unfold tileProgram sweepTile
  rw [List.foldl_append, h1, h2]

theorem sweepPatch_run (F : Rect) (p : SweepInput K) (tiles : List Rect) (s : SweepFields K) (r : ℕ → K) (n : ℕ) :
    (tilePrograms p.d F n tiles).flatten.foldl (runTileOp F p) (s, r) = (sweepPatch F p s tiles, r) := by
  induction tiles generalizing s n with
  | nil => rfl
  | cons a as ih =>
    simp only [tilePrograms, List.flatten_cons, List.foldl_append, sweepTile_run]
    exact ih _ _

/-- All steps of a schedule of whole programs are steps of the program of their tile. -/
theorem schedule_mem (d : Bool) (F : Rect) (tiles : List Rect) (sched : List TileOp) (h : IsSchedule (tilePrograms d F 0 tiles) sched) (o : TileOp) :
    o ∈ sched ↔ ∃ t tile, tiles[t]? = some tile ∧ o ∈ tileProgram d F t tile := by
  constructor
  · intro ho
    have h1 : o ∈ sched.filter (fun x : TileOp => decide (x.tile = o.tile)) := by simp [ho]
    rw [h o.tile, tilePrograms_getD] at h1
    cases ht : tiles[o.tile]? with
    | none => rw [ht] at h1; simp at h1
    | some tile =>
      rw [ht] at h1
      exact ⟨o.tile, tile, ht, by simpa using h1⟩
  · rintro ⟨t, tile, ht, ho⟩
    have h1 : o ∈ sched.filter (fun x : TileOp => decide (x.tile = t)) := by
      rw [h t, tilePrograms_getD, ht]
      simpa using ho
    exact List.mem_of_mem_filter h1

theorem sched_no_sweep_after (d : Bool) (F : Rect) (tiles : List Rect) (sched pre post : List TileOp) (o : TileOp) (f : ℤ × ℤ) (hf : InRect F f)
    (h : IsSchedule (tilePrograms d F 0 tiles) sched) (hs : sched = pre ++ o :: post) (hpost : ∀ x ∈ post, ¬ x.combines f) :
    ∀ x ∈ post, ¬ x.sweeps := by
  intro x hx hsw
  have hm : x ∈ sched := by rw [hs]; simp [hx]
  obtain ⟨t, tile, ht, hxm⟩ := (schedule_mem d F tiles sched h x).1 hm
  have hxt := (tileProgram_tile d F t tile x hxm).1
  have e := h t
  rw [tilePrograms_getD, ht] at e
  simp only [Nat.zero_add] at e
  rw [hs, show pre ++ o :: post = (pre ++ [o]) ++ post by simp, List.filter_append] at e
  unfold tileProgram at e
  have hxB : x ∈ post.filter (fun y : TileOp => decide (y.tile = t)) := by simp [hx, hxt]
  have hcomb : TileOp.combine t f ∈ F.points.map fun g : ℤ × ℤ => TileOp.combine t g := List.mem_map.2 ⟨f, (rect_points F f).2 hf, rfl⟩
  rcases List.append_eq_append_iff.1 e with ⟨a', h1, h2⟩ | ⟨c', h1, h2⟩
  · have : TileOp.combine t f ∈ post.filter (fun y : TileOp => decide (y.tile = t)) := by rw [h2]; exact List.mem_append_right _ hcomb
    exact hpost _ (List.mem_of_mem_filter this) rfl
  · have : x ∈ F.points.map fun g : ℤ × ℤ => TileOp.combine t g := by rw [h2]; exact List.mem_append_right _ hxB
    obtain ⟨g, _, rfl⟩ := List.mem_map.1 this
    exact hsw

end

end Fub
