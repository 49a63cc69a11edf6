import Verif.Spec.RegridData
import Mathlib.Algebra.BigOperators.Field
import Mathlib.Algebra.Order.BigOperators.Group.Finset
import Mathlib.Algebra.CharZero.Defs
import Mathlib.Data.Fintype.BigOperators
import Mathlib.Tactic.Ring
import Mathlib.Tactic.FieldSimp
import Mathlib.Tactic.Linarith
import Mathlib.Tactic.FinCases

/-!
C146 (conservation by regridding and initialisation), C147 (complete states after a regrid).
-/

namespace Fub
open Finset
variable {n : ℕ} {K : Type}

theorem mem_childCells {r : Index n} (hr : ∀ d, 0 < r d) {i I : Index n} : i ∈ childCells r I ↔ coarsenIdx r i = I := by
  unfold childCells coarsenIdx
  rw [Fintype.mem_piFinset]
  constructor
  · intro h; funext d
    obtain ⟨h1, h2⟩ := Finset.mem_Ico.1 (h d)
    have := hr d
    apply le_antisymm
    · have : i d / r d < I d + 1 := Int.ediv_lt_of_lt_mul (hr d) (by rw [add_mul, one_mul, mul_comm]; exact h2)
      omega
    · exact Int.le_ediv_of_mul_le (hr d) (by rw [mul_comm]; exact h1)
  · rintro rfl d
    rw [Finset.mem_Ico]
    have h1 := Int.mul_ediv_add_emod (i d) (r d)
    have h2 := Int.emod_nonneg (i d) (hr d).ne'
    have h3 := Int.emod_lt_of_pos (i d) (hr d)
    dsimp only
    constructor <;> omega

theorem childCells_card {r : Index n} (hr : ∀ d, 0 < r d) (I : Index n) : ((childCells r I).card : ℤ) = ∏ d, r d := by
  unfold childCells
  rw [Fintype.card_piFinset]
  push_cast
  refine Finset.prod_congr rfl fun d _ => ?_
  rw [Int.card_Ico]
  have := hr d
  rw [Int.toNat_of_nonneg (by omega)]; ring

theorem childCells_nonempty {r : Index n} (hr : ∀ d, 0 < r d) (I : Index n) : (childCells r I).Nonempty := by
  refine ⟨fun d => r d * I d, ?_⟩
  rw [mem_childCells hr]
  funext d
  exact Int.mul_ediv_cancel_left _ (hr d).ne'

section Mean
variable [Field K] [CharZero K]

theorem childCells_cardK {r : Index n} (hr : ∀ d, 0 < r d) (I : Index n) : ((childCells r I).card : K) = ∏ d, (r d : K) := by
  have := congrArg (Int.cast (R := K)) (childCells_card hr I)
  push_cast at this
  exact this

theorem mean_const {r : Index n} (hr : ∀ d, 0 < r d) (I : Index n) (f : Index n → K) (a : K) (h : ∀ i ∈ childCells r I, f i = a) :
    a = (∑ i ∈ childCells r I, f i) / ((childCells r I).card : K) := by
  rw [Finset.sum_congr rfl h, Finset.sum_const, nsmul_eq_mul]
  have : ((childCells r I).card : K) ≠ 0 := Nat.cast_ne_zero.2 (childCells_nonempty hr I).card_pos.ne'
  field_simp

/-- The cells of a nested fine level, sorted by the coarse cell that contains them. -/
theorem sum_fine_cells {r : Index n} (hr : ∀ d, 0 < r d) {coarse fine : GridLevel n K} (hn : NestedIn r coarse fine) (f : Index n → K) :
    ∑ i ∈ fine.cells, f i = ∑ I ∈ coarse.cells with childCells r I ⊆ fine.cells, ∑ i ∈ childCells r I, f i := by
  rw [← Finset.sum_fiberwise_of_maps_to (s := fine.cells) (t := coarse.cells.filter fun I => childCells r I ⊆ fine.cells) (g := coarsenIdx r)]
  · refine Finset.sum_congr rfl fun I hI => ?_
    refine Finset.sum_congr ?_ fun _ _ => rfl
    ext i
    rw [Finset.mem_filter, mem_childCells hr]
    constructor
    · exact fun h => h.2
    · exact fun h => ⟨(Finset.mem_filter.1 hI).2 ((mem_childCells hr).2 h), h⟩
  · intro i hi
    rw [Finset.mem_filter]
    exact hn i hi

/-- **C146.** If every covered cell holds the mean value of its fine cells, then the total amount is that of the coarsest level alone. -/
theorem composite_total {r : Index n} (hr : ∀ d, 0 < r d) (c : ℕ) (vol : K) (l : GridLevel n K) (fs : List (GridLevel n K))
    (hn : AllPairs (NestedIn r) l fs) (hm : AllPairs (HoldsMean r c) l fs) : compositeTotal r c vol (l :: fs) = ∑ I ∈ l.cells, vol * l.val I c := by
  induction fs generalizing l vol with
  | nil => rfl
  | cons f fs ih =>
    rw [compositeTotal, ih _ f hn.2 hm.2, sum_fine_cells hr hn.1, ← Finset.sum_filter_add_sum_filter_not l.cells (fun I => childCells r I ⊆ f.cells) (fun I => vol * l.val I c), add_comm]
    congr 1
    refine Finset.sum_congr rfl fun I hI => ?_
    obtain ⟨h1, h2⟩ := Finset.mem_filter.1 hI
    rw [hm.1 I h1 h2, ← Finset.mul_sum, childCells_cardK hr]
    ring

/-- The values of a quantity on the old level are kept on the new one. -/
def KeepsOld (c : ℕ) (old new : GridLevel n K) : Prop := ∀ I ∈ old.cells, new.val I c = old.val I c

omit [Field K] [CharZero K] in
theorem remake_keeps (r : Index n) (l f : GridLevel n K) (cells : Finset (Index n)) (c : ℕ) : KeepsOld c f (remakeLevel r l f cells) := by
  intro I hI
  simp only [remakeLevel, fillFromLevels, hI, if_true]

theorem mean_step {r : Index n} (hr : ∀ d, 0 < r d) {c : ℕ} {l l' f f' : GridLevel n K} (hn : NestedIn r l f) (hm : HoldsMean r c l f) (hk : KeepsOld c l l')
    (hf : ∀ i ∈ f'.cells, f'.val i c = if i ∈ f.cells then f.val i c else l'.val (coarsenIdx r i) c) : HoldsMean r c l' f' := by
  intro I hI hsub
  by_cases hold : ∃ i ∈ childCells r I, i ∈ f.cells
  · obtain ⟨i, hi, hif⟩ := hold
    have e := (mem_childCells hr).1 hi
    obtain ⟨h1, h2⟩ := hn i hif
    rw [e] at h1 h2
    rw [hk I h1, hm I h1 h2]
    congr 1
    refine Finset.sum_congr rfl fun j hj => ?_
    rw [hf j (hsub hj), if_pos (h2 hj)]
  · push Not at hold
    refine mean_const hr I _ _ fun i hi => ?_
    rw [hf i (hsub hi), if_neg (hold i hi), (mem_childCells hr).1 hi]

theorem mean_same {r : Index n} (hr : ∀ d, 0 < r d) {c : ℕ} {l l' f : GridLevel n K} (hn : NestedIn r l f) (hm : HoldsMean r c l f) (hk : KeepsOld c l l') : HoldsMean r c l' f := by
  intro I hI hsub
  obtain ⟨i, hi⟩ := childCells_nonempty hr I
  have h1 := (hn i (hsub hi)).1
  rw [(mem_childCells hr).1 hi] at h1
  rw [hk I h1]; exact hm I h1 hsub

/-- **C146.** Regridding keeps the property that every covered cell holds the mean value of its fine cells, for every conservative component. A level may only be created if the refinement ratio is two, see `create_ratio_wrong`. -/
theorem regrid_means {r : Index n} (hr : ∀ d, 0 < r d) {first size c : ℕ} (hc : first ≤ c ∧ c < first + size) (l l' : GridLevel n K)
    (acts : List (GridAct n K)) (fs : List (GridLevel n K)) (h2 : ∀ cells junk, GridAct.create cells junk ∈ acts → r = fun _ => 2)
    (hn : AllPairs (NestedIn r) l fs) (hm : AllPairs (HoldsMean r c) l fs) (hk : KeepsOld c l l') :
    AllPairs (HoldsMean r c) l' (regridData r first size l' acts fs) := by
  induction acts generalizing l l' fs with
  | nil =>
    cases fs with
    | nil => trivial
    | cons f fs => exact ⟨mean_same hr hn.1 hm.1 hk, hm.2⟩
  | cons a as ih =>
    have h2' : ∀ cells junk, GridAct.create cells junk ∈ as → r = fun _ => 2 := fun x y h => h2 x y (List.mem_cons_of_mem _ h)
    cases a with
    | same =>
      cases fs with
      | nil => trivial
      | cons f fs => exact ⟨mean_same hr hn.1 hm.1 hk, ih f f fs h2' hn.2 hm.2 fun _ _ => rfl⟩
    | remake cells =>
      cases fs with
      | nil => trivial
      | cons f fs => exact ⟨mean_step hr hn.1 hm.1 hk fun i _ => rfl, ih f _ fs h2' hn.2 hm.2 (remake_keeps _ _ _ _ _)⟩
    | clear => cases fs <;> trivial
    | create cells junk =>
      have hr2 := h2 cells junk List.mem_cons_self
      have hi : ∀ i, interpCons first size l' junk i c = l'.val (coarsenIdx r i) c := by
        intro i; simp only [interpCons, hc, and_self, if_true, hr2]
      cases fs with
      | nil =>
        refine ⟨?_, ih (newLevelFromCoarse first size l' cells junk) _ [] h2' trivial trivial fun _ _ => rfl⟩
        intro I _ _
        refine mean_const hr I _ _ fun i h => ?_
        simp only [newLevelFromCoarse]
        rw [hi, (mem_childCells hr).1 h]
      | cons f fs =>
        refine ⟨mean_step hr hn.1 hm.1 hk fun i _ => ?_, ih f _ fs h2' hn.2 hm.2 fun i h => ?_⟩
        · simp only [newLevelOverOld, hi]
        · simp only [newLevelOverOld, h, if_true]

omit [CharZero K] in
theorem compositeTotal_prefix (r : Index n) (c : ℕ) (pre : List (GridLevel n K)) (l : GridLevel n K) (fs gs : List (GridLevel n K))
    (h : ∀ vol : K, compositeTotal r c vol (l :: fs) = compositeTotal r c vol (l :: gs)) (vol : K) :
    compositeTotal r c vol (pre ++ l :: fs) = compositeTotal r c vol (pre ++ l :: gs) := by
  induction pre generalizing vol with
  | nil => exact h vol
  | cons p ps ih =>
    cases ps with
    | nil => simp only [List.cons_append, List.nil_append, compositeTotal, h]
    | cons q qs =>
      have := ih (vol / ∏ d, (r d : K))
      simp only [List.cons_append] at this ⊢
      simp only [compositeTotal, this]

/-- **C146.** A regrid does not change the total amount of a conserved quantity, whatever levels are remade, created or removed, provided that the covered cells held the mean values before and that the old and the new grids are nested. `pre` are the levels coarser than the regridded level `l`. -/
theorem regrid_conserves {r : Index n} (hr : ∀ d, 0 < r d) {first size c : ℕ} (hc : first ≤ c ∧ c < first + size) (pre : List (GridLevel n K)) (l : GridLevel n K)
    (acts : List (GridAct n K)) (fs : List (GridLevel n K)) (h2 : ∀ cells junk, GridAct.create cells junk ∈ acts → r = fun _ => 2)
    (hn : AllPairs (NestedIn r) l fs) (hm : AllPairs (HoldsMean r c) l fs) (hn' : AllPairs (NestedIn r) l (regridData r first size l acts fs)) (vol : K) :
    compositeTotal r c vol (pre ++ l :: regridData r first size l acts fs) = compositeTotal r c vol (pre ++ l :: fs) := by
  apply compositeTotal_prefix
  intro vol
  rw [composite_total hr c vol l fs hn hm, composite_total hr c vol l _ hn' (regrid_means hr hc l l acts fs h2 hn hm fun _ _ => rfl)]

/-- **C146.** Without the mean values in the covered cells the total amount is not kept: removing the fine level uncovers them. -/
theorem regrid_conserves_needs_means : ∃ (l f : GridLevel 1 ℚ), NestedIn (fun _ => 2) l f ∧
    compositeTotal (fun _ => 2) 0 1 (l :: regridData (fun _ => 2) 0 1 l [.clear] [f]) ≠ compositeTotal (fun _ => 2) 0 1 [l, f] := by
  refine ⟨⟨{fun _ => 0}, fun _ _ => 1⟩, ⟨{fun _ => 0, fun _ => 1}, fun _ _ => 2⟩, ?_, ?_⟩
  · intro i hi
    simp only [Finset.mem_insert, Finset.mem_singleton] at hi
    rcases hi with rfl | rfl <;> exact ⟨by decide +kernel, by decide +kernel⟩
  · decide +kernel

/-- **C146.** The level created from the coarse one uses the ratio two: with the refinement ratio four its conservative data are those of other coarse cells, and the total amount changes. -/
theorem create_ratio_wrong : ∃ (l : GridLevel 1 ℚ) (cells : Finset (Index 1)) (junk : Index 1 → ℕ → ℚ), NestedIn (fun _ => 4) l ⟨cells, junk⟩ ∧
    compositeTotal (fun _ => 4) 0 1 (l :: regridData (fun _ => 4) 0 1 l [.create cells junk] []) ≠ compositeTotal (fun _ => 4) 0 1 [l] := by
  refine ⟨⟨{fun _ => 0, fun _ => 1}, fun i _ => if i 0 = 0 then 1 else 2⟩, {fun _ => 0, fun _ => 1, fun _ => 2, fun _ => 3}, fun _ _ => 0, ?_, ?_⟩
  · intro i hi
    simp only [Finset.mem_insert, Finset.mem_singleton] at hi
    rcases hi with rfl | rfl | rfl | rfl <;> exact ⟨by decide +kernel, by decide +kernel⟩
  · decide +kernel

/-- **C146.** After the initialisation every covered cell holds the mean values of the conservative components of its fine cells, the other cells keep their initial data, and so does the finest level. -/
theorem initialize_means {r : Index n} {first size c : ℕ} (hc : first ≤ c ∧ c < first + size) (l : GridLevel n K) (fs : List (GridLevel n K)) :
    ∃ l' fs', initializeLevels r first size (l :: fs) = l' :: fs' ∧ l'.cells = l.cells ∧ AllPairs (HoldsMean r c) l' fs'
      ∧ compositeTotal r c (1 : K) (l' :: fs') = compositeTotal r c 1 (l :: fs) := by
  suffices h : ∃ l' fs', initializeLevels r first size (l :: fs) = l' :: fs' ∧ l'.cells = l.cells ∧ AllPairs (HoldsMean r c) l' fs'
      ∧ ∀ vol : K, compositeTotal r c vol (l' :: fs') = compositeTotal r c vol (l :: fs) by
    obtain ⟨l', fs', h1, h2, h3, h4⟩ := h
    exact ⟨l', fs', h1, h2, h3, h4 1⟩
  induction fs generalizing l with
  | nil => exact ⟨l, [], rfl, rfl, trivial, fun _ => rfl⟩
  | cons f fs ih =>
    obtain ⟨f', fs', h1, h2, h3, h4⟩ := ih f
    refine ⟨averageDown r first size f' l, f' :: fs', ?_, rfl, ⟨?_, h3⟩, fun vol => ?_⟩
    · rw [initializeLevels, h1]
    · intro I _ hsub
      simp only [averageDown, hc, hsub, and_self, if_true]
    · rw [compositeTotal, compositeTotal, h4, h2]
      congr 1
      refine Finset.sum_congr rfl fun I hI => ?_
      have := (Finset.mem_filter.1 hI).2
      simp only [averageDown, h2, this, and_false, if_false]

end Mean

/-- **C147.** A cell that belongs to the old and to the new grids of a level keeps all its components, on every level of the regrid. -/
theorem regrid_keeps_cells {r : Index n} {first size : ℕ} (l : GridLevel n K) (acts : List (GridAct n K)) (fs : List (GridLevel n K)) (k : ℕ) (f f' : GridLevel n K)
    (hf : fs[k]? = some f) (hf' : (regridData r first size l acts fs)[k]? = some f') (i : Index n) (hi : i ∈ f.cells) (c : ℕ) : f'.val i c = f.val i c := by
  induction acts generalizing l fs k with
  | nil => rw [regridData] at hf'; rw [hf] at hf'; cases hf'; rfl
  | cons a as ih =>
    cases fs with
    | nil => simp at hf
    | cons g gs =>
      cases a with
      | clear => simp [regridData] at hf'
      | same =>
        cases k with
        | zero => simp only [regridData, List.getElem?_cons_zero, Option.some.injEq] at hf hf'; subst hf hf'; rfl
        | succ k => simp only [regridData, List.getElem?_cons_succ] at hf hf'; exact ih _ gs k hf hf'
      | remake cells =>
        cases k with
        | zero =>
          simp only [regridData, List.getElem?_cons_zero, Option.some.injEq] at hf hf'; subst hf hf'
          simp only [remakeLevel, fillFromLevels, hi, if_true]
        | succ k => simp only [regridData, List.getElem?_cons_succ] at hf hf'; exact ih _ gs k hf hf'
      | create cells junk =>
        cases k with
        | zero =>
          simp only [regridData, List.getElem?_cons_zero, Option.some.injEq] at hf hf'; subst hf hf'
          simp only [newLevelOverOld, hi, if_true]
        | succ k => simp only [regridData, List.getElem?_cons_succ] at hf hf'; exact ih _ gs k hf hf'

/-- All cells of a level have states with the property `P` (for instance: the derived components fit to the conservative ones). -/
def LevelStates (P : (ℕ → K) → Prop) (l : GridLevel n K) : Prop := ∀ i ∈ l.cells, P (l.val i)

/-- **C147.** If all cells of all levels have complete states, then they still have complete states after every regrid that only remakes and removes levels. For created levels this is false, see `regrid_complete_wrong`. -/
theorem regrid_complete_partial {r : Index n} {first size : ℕ} (P : (ℕ → K) → Prop) (l : GridLevel n K) (acts : List (GridAct n K)) (fs : List (GridLevel n K))
    (h0 : ∀ cells junk, GridAct.create cells junk ∉ acts) (hl : LevelStates P l) (hfs : ∀ f ∈ fs, LevelStates P f)
    (hn' : AllPairs (NestedIn r) l (regridData r first size l acts fs)) : ∀ f ∈ regridData r first size l acts fs, LevelStates P f := by
  induction acts generalizing l fs with
  | nil => exact hfs
  | cons a as ih =>
    have h0' : ∀ cells junk, GridAct.create cells junk ∉ as := fun x y h => h0 x y (List.mem_cons_of_mem _ h)
    cases fs with
    | nil =>
      cases a with
      | create cells junk => exact absurd List.mem_cons_self (h0 cells junk)
      | _ => intro f hf; simp [regridData] at hf
    | cons g gs =>
      have hg := hfs g List.mem_cons_self
      have hgs : ∀ f ∈ gs, LevelStates P f := fun f h => hfs f (List.mem_cons_of_mem _ h)
      cases a with
      | clear => intro f hf; simp [regridData] at hf
      | create cells junk => exact absurd List.mem_cons_self (h0 cells junk)
      | same =>
        intro f hf
        rcases List.mem_cons.1 hf with rfl | hf
        · exact hg
        · exact ih g gs h0' hg hgs hn'.2 f hf
      | remake cells =>
        have hnew : LevelStates P (remakeLevel r l g cells) := by
          intro i hi
          by_cases h : i ∈ g.cells
          · have e : (remakeLevel r l g cells).val i = g.val i := by funext c; simp only [remakeLevel, fillFromLevels, h, if_true]
            rw [e]; exact hg i h
          · have e : (remakeLevel r l g cells).val i = l.val (coarsenIdx r i) := by funext c; simp only [remakeLevel, fillFromLevels, h, if_false]
            rw [e]; exact hl _ (hn'.1 i hi).1
        intro f hf
        rcases List.mem_cons.1 hf with rfl | hf
        · exact hnew
        · exact ih _ gs h0' hnew hgs hn'.2 f hf

/-- **C147.** (Disagreement.) A level created by a regrid has the conservative components of the coarse cells and nothing else: every component outside of the conservative ones has the value that was in the memory, in all cells. -/
theorem regrid_complete_wrong (first size : ℕ) (l : GridLevel n K) (cells : Finset (Index n)) (junk : Index n → ℕ → K) (r : Index n) :
    ∃ f, regridData r first size l [.create cells junk] [] = [f] ∧ f.cells = cells
      ∧ ∀ i c, f.val i c = if first ≤ c ∧ c < first + size then l.val (coarsenIdx (fun _ => 2) i) c else junk i c :=
  ⟨newLevelFromCoarse first size l cells junk, rfl, rfl, fun _ _ => rfl⟩

/-- **C147.** (Disagreement.) A concrete case with one conservative component `u` and the derived component `u²`: all states are complete before the regrid and none is on the created level. -/
theorem regrid_complete_witness : ∃ (l : GridLevel 1 ℚ) (cells : Finset (Index 1)) (junk : Index 1 → ℕ → ℚ),
    let P : (ℕ → ℚ) → Prop := fun s => s 1 = s 0 ^ 2
    LevelStates P l ∧ NestedIn (fun _ => 2) l ⟨cells, junk⟩ ∧ ∀ f ∈ regridData (fun _ => 2) 0 1 l [.create cells junk] [], ∀ i ∈ f.cells, ¬ P (f.val i) := by
  refine ⟨⟨{fun _ => 0}, fun _ c => if c = 0 then 2 else 4⟩, {fun _ => 0, fun _ => 1}, fun _ _ => 0, ?_, ?_, ?_⟩
  · intro i hi; simp; norm_num
  · intro i hi
    simp only [Finset.mem_insert, Finset.mem_singleton] at hi
    rcases hi with rfl | rfl <;> exact ⟨by decide +kernel, by decide +kernel⟩
  · intro f hf i hi
    simp only [regridData, List.mem_singleton] at hf
    subst hf
    simp [newLevelFromCoarse, interpCons]; norm_num

/-- **C147.** (Disagreement.) The initialisation averages only the conservative components: a covered coarse cell keeps the derived components of its own initial data, which do not fit to the mean values if the derived component is not linear. -/
theorem initialize_complete_wrong : ∃ (l f : GridLevel 1 ℚ),
    let P : (ℕ → ℚ) → Prop := fun s => s 1 = s 0 ^ 2
    LevelStates P l ∧ LevelStates P f ∧ NestedIn (fun _ => 2) l f ∧ ∃ l', initializeLevels (fun _ => 2) 0 1 [l, f] = [l', f] ∧ ∃ i ∈ l'.cells, ¬ P (l'.val i) := by
  refine ⟨⟨{fun _ => 0}, fun _ c => if c = 0 then 2 else 4⟩, ⟨{fun _ => 0, fun _ => 1}, fun i c => if i 0 = 0 then (if c = 0 then 1 else 1) else (if c = 0 then 5 else 25)⟩, ?_, ?_, ?_,
    averageDown (fun _ => 2) 0 1 _ _, rfl, fun _ => 0, by decide +kernel, by decide +kernel⟩
  · intro i hi; simp; norm_num
  · intro i hi; by_cases h : i 0 = 0 <;> simp [h] <;> norm_num
  · intro i hi
    simp only [Finset.mem_insert, Finset.mem_singleton] at hi
    rcases hi with rfl | rfl <;> exact ⟨by decide +kernel, by decide +kernel⟩

/-- A coarse level of three cells and a fine level over the first one, with the mean value in the covered cell. -/
def exCoarse : GridLevel 1 ℚ := ⟨{fun _ => 0, fun _ => 1, fun _ => 2}, fun i _ => i 0 + 1⟩
def exFine : GridLevel 1 ℚ := ⟨{fun _ => 0, fun _ => 1}, fun i _ => if i 0 = 0 then 1 / 2 else 3 / 2⟩

theorem exNested : NestedIn (fun _ => 2) exCoarse exFine := by
  intro i hi
  simp only [exFine, Finset.mem_insert, Finset.mem_singleton] at hi
  rcases hi with rfl | rfl <;> exact ⟨by decide +kernel, by decide +kernel⟩

theorem exMean : HoldsMean (fun _ => 2) 0 exCoarse exFine := by
  intro i hi
  simp only [exCoarse, Finset.mem_insert, Finset.mem_singleton] at hi
  rcases hi with rfl | rfl | rfl
  · intro _; decide +kernel
  · intro h; exact absurd h (by decide +kernel)
  · intro h; exact absurd h (by decide +kernel)

/-- The fine level grows to the cells of the second coarse cell and a third level is created over its last cell. -/
example : compositeTotal (fun _ => 2) 0 (1 : ℚ) (exCoarse :: regridData (fun _ => 2) 0 1 exCoarse [.remake {fun _ => 0, fun _ => 1, fun _ => 2, fun _ => 3}, .create {fun _ => 6, fun _ => 7} fun _ _ => 100] [exFine])
    = compositeTotal (fun _ => 2) 0 1 [exCoarse, exFine] := by
  refine regrid_conserves (first := 0) (size := 1) (c := 0) (fun _ => by decide) (by decide) [] exCoarse
    [.remake {fun _ => 0, fun _ => 1, fun _ => 2, fun _ => 3}, .create {fun _ => 6, fun _ => 7} fun _ _ => 100] [exFine] (fun _ _ _ => rfl) ⟨exNested, trivial⟩ ⟨exMean, trivial⟩ ⟨?_, ?_, trivial⟩ 1
  · intro i hi
    simp only [remakeLevel, Finset.mem_insert, Finset.mem_singleton] at hi
    rcases hi with rfl | rfl | rfl | rfl <;> exact ⟨by decide +kernel, by decide +kernel⟩
  · intro i hi
    simp only [newLevelFromCoarse, Finset.mem_insert, Finset.mem_singleton] at hi
    rcases hi with rfl | rfl <;> exact ⟨by decide +kernel, by decide +kernel⟩
example : compositeTotal (fun _ => 2) 0 (1 : ℚ) [exCoarse, exFine] = 6 := by decide +kernel
/-- The states `(u, u²)` stay complete when the fine level is remade. -/
example : ∀ f ∈ regridData (fun _ => 2) 0 1 (⟨{fun _ => 0, fun _ => 1}, fun i c => if c = 0 then (i 0 : ℚ) else (i 0 : ℚ) ^ 2⟩ : GridLevel 1 ℚ)
    [.remake {fun _ => 0, fun _ => 1, fun _ => 2, fun _ => 3}] [⟨{fun _ => 0, fun _ => 1}, fun i c => if c = 0 then (i 0 : ℚ) + 5 else ((i 0 : ℚ) + 5) ^ 2⟩],
    LevelStates (fun s => s 1 = s 0 ^ 2) f := by
  refine regrid_complete_partial _ _ _ _ (by simp) (fun i _ => by simp) (fun f hf i _ => ?_) ⟨?_, trivial⟩
  · simp only [List.mem_singleton] at hf; subst hf; simp
  · intro i hi
    simp only [remakeLevel, Finset.mem_insert, Finset.mem_singleton] at hi
    rcases hi with rfl | rfl | rfl | rfl <;> exact ⟨by decide +kernel, by decide +kernel⟩

end Fub
