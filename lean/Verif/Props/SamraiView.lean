import Verif.Spec.SamraiView
import Verif.Props.PatchIntegrator
import Verif.Props.Layout
import Mathlib.Tactic.Ring
import Mathlib.Tactic.FieldSimp
import Mathlib.Tactic.Linarith
import Mathlib.Algebra.CharZero.Defs
import Mathlib.Data.Fin.VecNotation

/-!
# Theorems about views, updates, coordinates and variables of the SAMRAI backend
-/

namespace Fub

/-! ### Views -/

theorem mapLeft_ofFn {d : ℕ} (n : Fin d → ℕ) (i : Index d) : mapLeft (List.ofFn n) (List.ofFn i) = columnMajor n i := by
  induction d with
  | zero => simp [mapLeft, columnMajor, dot, stridesLeft]
  | succ d ih => rw [List.ofFn_succ, List.ofFn_succ, mapLeft_cons, ih]; rfl

theorem mapLeft_append_one (ext : List ℕ) (is : List ℤ) (e : ℕ) (k : ℤ) (h : ext.length = is.length) :
    mapLeft (ext ++ [e]) (is ++ [k]) = mapLeft ext is + (ext.prod : ℤ) * k := by
  induction ext generalizing is with
  | nil =>
    cases is with
    | nil =>
      rw [List.nil_append, List.nil_append, mapLeft_cons]
      simp [mapLeft, dot, stridesLeft]
    | cons i is => simp at h
  | cons x xs ih =>
    cases is with
    | nil => simp at h
    | cons i is =>
      rw [List.cons_append, List.cons_append, mapLeft_cons, mapLeft_cons, ih is (by simpa using h), List.prod_cons]
      push_cast
      ring

theorem samExtents_succ {d : ℕ} (a : SamArray d) (h : 0 < a.depth) : samExtents (d + 1) a = some (List.ofFn a.cells ++ [a.depth]) := by
  unfold samExtents
  rw [if_neg (by omega), List.ofFn_succ_last]
  congr 2
  · simp
  · simp only [Fin.val_last, lt_irrefl, dite_false, and_true]
    congr 1
    split <;> omega

theorem samExtents_same {d : ℕ} (a : SamArray d) (h : a.depth = 1) : samExtents d a = some (List.ofFn a.cells) := by
  unfold samExtents
  rw [if_neg (by omega)]
  simp

theorem samIndexBox_lower {d : ℕ} (lo up : Index d) : (samIndexBox (d + 1) lo up).lower = Fin.snoc lo 0 := by
  funext i
  refine Fin.lastCases ?_ (fun j => ?_) i
  · simp [samIndexBox]
  · simp [samIndexBox]

theorem samIndexBox_self {d : ℕ} (lo up : Index d) : samIndexBox d lo up = ⟨lo, fun i => up i + 1⟩ := by
  simp [samIndexBox]

theorem samView_succ {d : ℕ} (a : SamArray d) (h : 0 < a.depth) :
    samView (d + 1) a = some ⟨MdSpan.mkLeft a.base (List.ofFn a.cells ++ [a.depth]), Fin.snoc a.lo 0⟩ := by
  rw [samView, samExtents_succ a h, samIndexBox_lower]; rfl

theorem samView_addr {d : ℕ} (a : SamArray d) (e : ℕ) (i : Index d) (k : ℤ) :
    (⟨MdSpan.mkLeft a.base (List.ofFn a.cells ++ [e]), Fin.snoc a.lo 0⟩ : PatchView (d + 1)).addr (Fin.snoc i k) = samElem a i k := by
  have h1 : (List.ofFn fun j : Fin (d + 1) => (Fin.snoc i k : Index (d + 1)) j - (Fin.snoc a.lo 0 : Index (d + 1)) j) =
      (List.ofFn fun j : Fin d => i j - a.lo j) ++ [k] := by
    rw [List.ofFn_succ_last]; simp
  have h2 := mapLeft_append_one (List.ofFn a.cells) (List.ofFn fun j : Fin d => i j - a.lo j) e k (by simp)
  rw [mapLeft_ofFn, List.prod_ofFn] at h2
  simp only [PatchView.addr, MdSpan.addr, MdSpan.mkLeft, h1]
  rw [show dot (stridesLeft (List.ofFn a.cells ++ [e])) ((List.ofFn fun j : Fin d => i j - a.lo j) ++ [k]) =
    mapLeft (List.ofFn a.cells ++ [e]) ((List.ofFn fun j : Fin d => i j - a.lo j) ++ [k]) from rfl, h2, samElem]
  ring

/-- **C175 (views with components).** For an array of any dimension and depth, the view of rank dimension + 1 exists, its box is the box of the
array times the components, and its element `(i, k)` is the element of component `k` at `i` of the SAMRAI array. -/
theorem samrai_view {d : ℕ} (a : SamArray d) (h : 0 < a.depth) (hb : ∀ e, a.lo e ≤ a.up e + 1) :
    ∃ v, samView (d + 1) a = some v ∧ (∀ (i : Index d) (k : ℤ), v.addr (Fin.snoc i k) = samElem a i k) ∧
      ∀ (i : Index d) (k : ℤ), Fin.snoc i k ∈ v.box.toSet ↔ a.Has i ∧ 0 ≤ k ∧ k < a.depth := by
  refine ⟨_, samView_succ a h, samView_addr a a.depth, fun i k => ?_⟩
  have hsnd : ∀ (j : Fin (d + 1)), ((List.ofFn a.cells ++ [a.depth]).getD j.1 0) = (Fin.snoc a.cells a.depth : Fin (d + 1) → ℕ) j := by
    intro j
    rw [List.getD_eq_getElem _ _ (by simp)]
    refine Fin.lastCases ?_ (fun j => ?_) j
    · simp
    · rw [List.getElem_append_left (by simp)]; simp
  constructor
  · intro hm
    refine ⟨fun e => ?_, ?_⟩
    · have := hm e.castSucc
      simp only [PatchView.box, MdSpan.mkLeft, hsnd, Fin.snoc_castSucc] at this
      simp only [SamArray.cells] at this
      have := hb e
      omega
    · have := hm (Fin.last d)
      simp only [PatchView.box, MdSpan.mkLeft, hsnd, Fin.snoc_last] at this
      omega
  · rintro ⟨hi, hk⟩ j
    simp only [PatchView.box, MdSpan.mkLeft, hsnd]
    refine Fin.lastCases ?_ (fun j => ?_) j
    · simp only [Fin.snoc_last]; omega
    · simp only [Fin.snoc_castSucc, SamArray.cells]
      have := hi j
      omega

/-- **C175 (views of scalars).** For an array of depth one the view of the same rank as the array exists and its element `i` is the element of
the array. -/
theorem samrai_view_scalar {d : ℕ} (a : SamArray d) (h : a.depth = 1) :
    ∃ v, samView d a = some v ∧ ∀ i : Index d, v.addr i = samElem a i 0 := by
  refine ⟨⟨MdSpan.mkLeft a.base (List.ofFn a.cells), a.lo⟩, by rw [samView, samExtents_same a h, samIndexBox_self]; rfl, fun i => ?_⟩
  simp only [PatchView.addr, MdSpan.addr, MdSpan.mkLeft]
  rw [show dot (stridesLeft (List.ofFn a.cells)) (List.ofFn fun j : Fin d => i j - a.lo j) =
    mapLeft (List.ofFn a.cells) (List.ofFn fun j : Fin d => i j - a.lo j) from rfl, mapLeft_ofFn, samElem]
  ring

/-- **C175 (too small rank).** An array of depth greater than one has no view of a rank that is not greater than its dimension. -/
theorem samrai_view_throws {d : ℕ} (a : SamArray d) (h : 1 < a.depth) (rank : ℕ) (hr : rank ≤ d) : samView rank a = none := by
  unfold samView samExtents
  rw [if_pos (by omega)]
  rfl

theorem inRange_ofFn {d : ℕ} (n : Fin d → ℕ) (i : Index d) : InRange (List.ofFn n) (List.ofFn i) ↔ ∀ e, 0 ≤ i e ∧ i e < n e := by
  unfold InRange
  rw [List.forall₂_iff_get]
  simp only [List.length_ofFn, List.get_eq_getElem, List.getElem_ofFn, true_and]
  exact ⟨fun h e => h e.1 e.2 e.2, fun h k h1 _ => h ⟨k, h1⟩⟩

theorem SamArray.Has.inRange {d : ℕ} {a : SamArray d} {i : Index d} (h : a.Has i) :
    InRange (List.ofFn a.cells) (List.ofFn fun e => i e - a.lo e) := by
  rw [inRange_ofFn]
  intro e
  have := h e
  simp only [SamArray.cells]
  omega

theorem columnMajor_bound {d : ℕ} {a : SamArray d} {i : Index d} (h : a.Has i) :
    0 ≤ columnMajor a.cells (fun e => i e - a.lo e) ∧ columnMajor a.cells (fun e => i e - a.lo e) < ((∏ e, a.cells e : ℕ) : ℤ) := by
  have := (mapLeft_bijective (List.ofFn a.cells)).1 _ h.inRange
  rw [mapLeft_ofFn, sizeOfExtents, List.prod_ofFn] at this
  exact this

/-- Elements of an array have different addresses, also for components beyond its depth. -/
theorem samElem_inj {d : ℕ} {a : SamArray d} {i j : Index d} {k l : ℤ} (hi : a.Has i) (hj : a.Has j) (h : samElem a i k = samElem a j l) :
    i = j ∧ k = l := by
  obtain ⟨h1, h2⟩ := columnMajor_bound hi
  obtain ⟨h3, h4⟩ := columnMajor_bound hj
  have := radix_inj (q := k) (r := l) h1 h2 h3 h4 (by simp only [samElem] at h; linarith)
  refine ⟨?_, this.2⟩
  have h5 := (mapLeft_bijective (List.ofFn a.cells)).2.1 _ _ hi.inRange hj.inRange (by rw [mapLeft_ofFn, mapLeft_ofFn]; exact this.1)
  have h6 := List.ofFn_inj.1 h5
  funext e
  have := congrFun h6 e
  omega

/-! ### The conservative update -/

theorem zipWith_dynLength {n : ℕ} (ext : List ℕ) (he : ext.length = n) (a l : Fin n → ℤ) (hl : ∀ d, 0 ≤ l d) :
    List.zipWith Slice.dynLength ext (List.ofFn fun d => Slice.range (a d) (a d + l d)) = List.ofFn l := by
  apply List.ext_getElem
  · simp [he]
  · intro k h1 h2
    simp only [List.getElem_zipWith, List.getElem_ofFn, Slice.dynLength, Slice.mapToLength]
    have := hl ⟨k, by simpa using h2⟩
    rw [if_neg (by omega)]
    ring

theorem subview_ext_pos {n : ℕ} (v : PatchView n) (he : v.mds.ext.length = n) (b : IndexBox n) (hne : ∀ d, b.lower d < b.upper d) :
    (v.subview b).mds.ext = List.ofFn fun d => (b.upper d - b.lower d).toNat := by
  simp only [PatchView.subview, MdSpan.subspan, sliceExtents]
  rw [zipWith_dynLength v.mds.ext he (fun d => b.lower d - v.origin d) (fun d => b.upper d - b.lower d) (fun d => by have := hne d; omega),
    List.filter_eq_self.2, sliceRank_ofFn, List.map_ofFn]
  · simp only [List.length_ofFn, Nat.sub_self, List.replicate_zero, List.append_nil]
    rfl
  · intro x hx
    obtain ⟨d, rfl⟩ := (List.mem_ofFn' _ _).1 hx
    have := hne d
    simp only [decide_eq_true_eq]
    omega

theorem subview_box_pos {n : ℕ} (v : PatchView n) (he : v.mds.ext.length = n) (b : IndexBox n) (hne : ∀ d, b.lower d < b.upper d) :
    (v.subview b).box = b := by
  have hx := subview_ext_pos v he b hne
  ext d
  · rfl
  · simp only [PatchView.box, hx]
    have := hne d
    rw [List.getD_eq_getElem _ _ (by simp)]
    simp only [List.getElem_ofFn, PatchView.subview, Fin.eta]
    omega

theorem nested_mono {m m' : ℕ} (h : m' ≤ m) (ext str : List ℕ) (hn : NestedStrides m ext str) : NestedStrides m' ext str := by
  cases ext with
  | nil => cases str <;> simpa [NestedStrides] using hn
  | cons e es =>
    cases str with
    | nil => simpa [NestedStrides] using hn
    | cons s ss => exact ⟨h.trans hn.1, hn.2⟩

theorem nested_shrink (ext' ext : List ℕ) (hle : List.Forall₂ (· ≤ ·) ext' ext) (m e e' : ℕ) (str : List ℕ)
    (hn : NestedStrides m (ext ++ [e]) str) : NestedStrides m (ext' ++ [e']) str := by
  induction hle generalizing m str with
  | nil =>
    cases str with
    | nil => simp [NestedStrides] at hn
    | cons s ss =>
      cases ss with
      | nil => exact ⟨hn.1, trivial⟩
      | cons t ts => simp [NestedStrides] at hn
  | cons h _ ih =>
    cases str with
    | nil => simp [NestedStrides] at hn
    | cons s ss => exact ⟨hn.1, nested_mono (Nat.mul_le_mul_right s h) _ _ (ih _ ss hn.2)⟩

theorem samUpdateBox_self {d : ℕ} (a : SamArray d) (dir : Fin d) (ncons : ℕ) (i : Index d) (k : ℤ) :
    Fin.snoc i k ∈ (samUpdateBox d a dir ncons).toSet ↔ a.Updated dir i ∧ 0 ≤ k ∧ k < ncons := by
  unfold samUpdateBox
  rw [samIndexBox_self]
  simp only [IndexBox.toSet, IndexBox.embed, IndexBox.shrink, Set.mem_ofPred_eq]
  constructor
  · intro h
    have hl := h (Fin.last d)
    simp only [Fin.snoc_last] at hl
    have hd := h dir.castSucc
    simp only [Fin.snoc_castSucc, Function.update_self] at hd
    refine ⟨⟨fun e => ?_, by omega, by omega⟩, hl⟩
    have he := h e.castSucc
    simp only [Fin.snoc_castSucc, Function.update_apply] at he
    by_cases hed : e = dir
    · subst hed; simp only [if_true] at he; omega
    · simp only [hed, if_false] at he; omega
  · rintro ⟨⟨hh, h1, h2⟩, hk⟩ e
    refine Fin.lastCases ?_ (fun e => ?_) e
    · simpa only [Fin.snoc_last] using hk
    · simp only [Fin.snoc_castSucc, Function.update_apply]
      have := hh e
      by_cases hed : e = dir
      · subst hed; simp only [if_true]; omega
      · simp only [hed, if_false]; omega

/-- **C176 (which cells and components).** When the dimension of the data is `SAMRAI_MAXIMUM_DIMENSION`, the update of one variable with any
depth adds `dt/dx` times the difference of the fluxes to the components `0, ..., n - 1` of every cell but the outermost ghost layer in the
direction, where `n` is the *number of conservative variables*; nothing else is written. -/
theorem samrai_update_cells_partial {d : ℕ} {K : Type} [Field K] (hd : d = 1 ∨ d = 2 ∨ d = 3) (fuel w : ℕ) (hw : 0 < w) (state flux : SamArray d)
    (dir : Fin d) (ncons : ℕ) (hs : 0 < state.depth) (hf : 0 < flux.depth) (hn : 0 < ncons) (hne : ∃ i, state.Updated dir i)
    (hfb : ∀ i, state.Updated dir i → flux.Has i ∧ flux.Has (shift i dir 1))
    (hdis : ∀ i j (k l : ℤ), state.Has i → flux.Has j → 0 ≤ k → k < ncons → 0 ≤ l → l < ncons → samElem state i k ≠ samElem flux j l)
    (hfuel : ∀ e, (state.up e - state.lo e + 1).toNat < fuel) (hfuel' : ncons < fuel) (dt dx : K) (m : Mem K) :
    ∃ m', samUpdate d fuel w hw state flux dir ncons dt dx m = some m' ∧
      (∀ i (k : ℤ), state.Updated dir i → 0 ≤ k → k < ncons →
        m' (samElem state i k) = m (samElem state i k) + dt / dx * (m (samElem flux i k) - m (samElem flux (shift i dir 1) k))) ∧
      ∀ x, (∀ i (k : ℤ), state.Updated dir i → 0 ≤ k → k < ncons → x ≠ samElem state i k) → m' x = m x := by
  obtain ⟨i0, hi0⟩ := hne
  have hpos : ∀ e, (samUpdateBox d state dir ncons).lower e < (samUpdateBox d state dir ncons).upper e := by
    have hmem := (samUpdateBox_self state dir ncons i0 0).2 ⟨hi0, le_refl _, by omega⟩
    intro e
    have := hmem e
    omega
  set cells := samUpdateBox d state dir ncons with hcells
  set faces := cells.grow dir.castSucc 0 1 with hfaces
  set sv : PatchView (d + 1) := ⟨MdSpan.mkLeft state.base (List.ofFn state.cells ++ [state.depth]), Fin.snoc state.lo 0⟩ with hsv
  set fv : PatchView (d + 1) := ⟨MdSpan.mkLeft flux.base (List.ofFn flux.cells ++ [flux.depth]), Fin.snoc flux.lo 0⟩ with hfv
  have hsl : sv.mds.ext.length = d + 1 := by simp [hsv, MdSpan.mkLeft]
  have hss : sv.mds.str.length = d + 1 := by simp [hsv, MdSpan.mkLeft, stridesLeft]
  have hfs : fv.mds.str.length = d + 1 := by simp [hfv, MdSpan.mkLeft, stridesLeft]
  have hfl : fv.mds.ext.length = d + 1 := by simp [hfv, MdSpan.mkLeft]
  have hrun : samUpdate d fuel w hw state flux dir ncons dt dx m =
      updateSimd fuel w hw (sv.subview cells) (sv.subview cells) (fv.subview faces) dt dx dir m := by
    unfold samUpdate
    rw [samView_succ state hs, samView_succ flux hf]
    rfl
  have hbox : (sv.subview cells).box = cells := subview_box_pos sv hsl cells hpos
  have hext := subview_ext_pos sv hsl cells hpos
  have haddr : ∀ i k, (sv.subview cells).addr (Fin.snoc i k) = samElem state i k := fun i k => by
    rw [subview_addr sv hss, hsv, samView_addr]
  have hfaddr : ∀ i k, (fv.subview faces).addr (Fin.snoc i k) = samElem flux i k := fun i k => by
    rw [subview_addr fv hfs, hfv, samView_addr]
  have hsn : ∀ i : Index (d + 1), ∃ (j : Index d) (k : ℤ), i = Fin.snoc j k := fun i => ⟨Fin.init i, i (Fin.last d), (Fin.snoc_init_self i).symm⟩
  have hshift : ∀ (i : Index d) (k : ℤ), shift (Fin.snoc i k : Index (d + 1)) dir.castSucc 1 = Fin.snoc (shift i dir 1) k := by
    intro i k
    simp only [shift, Fin.snoc_castSucc]
    rw [Fin.snoc_update]
  have hd0 : 0 < d := by omega
  have hcpos : ∀ e, 0 < state.cells e := fun e => by
    have := hi0.1 e
    simp only [SamArray.cells]
    omega
  have hspos : ∀ x ∈ List.ofFn state.cells ++ [state.depth], 0 < x := by
    intro x hx
    rcases List.mem_append.1 hx with h | h
    · obtain ⟨e, rfl⟩ := (List.mem_ofFn' _ _).1 h; exact hcpos e
    · rw [List.mem_singleton.1 h]; exact hs
  have hinj : ∀ i ∈ cells.toSet, ∀ j ∈ cells.toSet, (sv.subview cells).addr i = (sv.subview cells).addr j → i = j := by
    intro i hi j hj h
    obtain ⟨i', k, rfl⟩ := hsn i
    obtain ⟨j', l, rfl⟩ := hsn j
    rw [haddr, haddr] at h
    obtain ⟨h1, -⟩ := (samUpdateBox_self _ _ _ _ _).1 hi
    obtain ⟨h2, -⟩ := (samUpdateBox_self _ _ _ _ _).1 hj
    obtain ⟨rfl, rfl⟩ := samElem_inj h1.1 h2.1 h
    rfl
  have hcontig : ∀ (e : ℕ) (a : SamArray d), (stridesLeft (List.ofFn a.cells ++ [e])).getD 0 0 = 1 := by
    intro e a
    obtain ⟨d', rfl⟩ : ∃ d', d = d' + 1 := ⟨d - 1, by omega⟩
    rw [List.ofFn_succ, List.cons_append, stridesLeft_cons]
    rfl
  have hviews : UpdateViews (sv.subview cells) (sv.subview cells) (fv.subview faces) := by
    refine ⟨⟨⟨by rw [hext]; simp, by rw [subview_str sv hss]; exact hss⟩, ⟨by rw [hext]; simp, by rw [subview_str sv hss]; exact hss⟩, ?_, ?_⟩,
      ⟨rfl, rfl, rfl⟩, ⟨?_, ?_, ?_⟩, ?_, ?_, rfl⟩
    · have hp : ∀ e, faces.lower e < faces.upper e := by
        intro e
        have := hpos e
        simp only [hfaces, IndexBox.grow, Function.update_apply]
        split
        · next h => subst h; omega
        · omega
      rw [subview_ext_pos fv hfl faces hp]; simp
    · rw [subview_str fv hfs]; exact hfs
    · rw [subview_str sv hss]; exact hcontig _ state
    · rw [subview_str sv hss]; exact hcontig _ state
    · rw [subview_str fv hfs]; exact hcontig _ flux
    · rw [hext, subview_str sv hss, List.ofFn_succ_last]
      refine nested_shrink _ (List.ofFn state.cells) ?_ 1 state.depth _ _ (nested_left _ hspos)
      rw [List.forall₂_iff_get]
      refine ⟨by simp, fun k h1 h2 => ?_⟩
      have hk : k < d := by simpa using h2
      simp only [List.get_eq_getElem, List.getElem_ofFn, hcells, samUpdateBox, samIndexBox_self, IndexBox.embed, IndexBox.shrink,
        Fin.snoc_castSucc, Function.update_apply, SamArray.cells]
      generalize (⟨k, _⟩ : Fin d) = e
      by_cases he : e = dir
      · subst he; simp only [if_true]; omega
      · simp only [he, if_false]; omega
    · intro x hx
      rw [hext] at hx
      obtain ⟨e, rfl⟩ := (List.mem_ofFn' _ _).1 hx
      have := hpos e
      show 0 < (_ : ℤ).toNat
      omega
  have hna : UpdateNoAlias (sv.subview cells) (sv.subview cells) (fv.subview faces) dir := by
    refine ⟨by rw [hbox]; exact hinj, ?_, by rw [hbox]; exact hinj⟩
    rw [hbox]
    intro i hi j hj
    obtain ⟨i', k, rfl⟩ := hsn i
    obtain ⟨j', l, rfl⟩ := hsn j
    obtain ⟨h1, h2, h3⟩ := (samUpdateBox_self _ _ _ _ _).1 hi
    obtain ⟨h4, h5, h6⟩ := (samUpdateBox_self _ _ _ _ _).1 hj
    rw [haddr, hfaddr, hshift, hfaddr]
    exact ⟨hdis i' j' k l h1.1 (hfb _ h4).1 h2 h3 h5 h6, hdis i' _ k l h1.1 (hfb _ h4).2 h2 h3 h5 h6⟩
  have hfu : (sv.subview cells).mds.ext.getD 1 0 < fuel := by
    rw [hext, List.getD_eq_getElem _ _ (by simp; omega), List.getElem_ofFn]
    have key : ∀ e, (cells.upper e - cells.lower e).toNat < fuel := by
      intro e
      refine Fin.lastCases ?_ (fun e => ?_) e
      · simp only [hcells, samUpdateBox, IndexBox.embed, Fin.snoc_last]; omega
      · have := hfuel e
        simp only [hcells, samUpdateBox, samIndexBox_self, IndexBox.embed, IndexBox.shrink, Fin.snoc_castSucc, Function.update_apply]
        split <;> (try subst_vars) <;> omega
    exact key _
  rw [hrun, updateSimd_eq hd _ _ _ dir hviews hna fuel w hw hfu dt dx m]
  have hspec := updateSeq_spec (sv.subview cells) (sv.subview cells) (fv.subview faces) dt dx dir m hna
  refine ⟨_, rfl, fun i k hi h0 h1 => ?_, fun x hx => hspec.others x fun i hi => ?_⟩
  · have := hspec.cells (Fin.snoc i k) (by rw [hbox]; exact (samUpdateBox_self _ _ _ _ _).2 ⟨hi, h0, h1⟩)
    rw [haddr, hfaddr, hshift, hfaddr] at this
    exact this
  · rw [hbox] at hi
    obtain ⟨i', k, rfl⟩ := hsn i
    obtain ⟨h1, h2, h3⟩ := (samUpdateBox_self _ _ _ _ _).1 hi
    rw [haddr]
    exact hx i' k h1 h2 h3

/-- **C176 (out of bounds).** If the variable has fewer components than there are conservative variables - the density of the Euler equations has
one, and there are three - then the update writes beyond the end of the array of the variable. -/
theorem samrai_update_overrun {d : ℕ} (state : SamArray d) (i : Index d) (hi : state.Has i) (ncons : ℕ) (h : state.depth < ncons) :
    ∃ k : ℤ, 0 ≤ k ∧ k < ncons ∧ state.base + (state.depth : ℤ) * ((∏ e, state.cells e : ℕ) : ℤ) ≤ samElem state i k := by
  refine ⟨state.depth, by omega, by omega, ?_⟩
  have := (columnMajor_bound hi).1
  simp only [samElem]
  linarith

/-- All elements of the array itself are within its memory: the memory `samrai_update_overrun` leaves. -/
theorem samElem_within {d : ℕ} (a : SamArray d) (i : Index d) (hi : a.Has i) (k : ℤ) (h0 : 0 ≤ k) (h1 : k < a.depth) :
    a.base ≤ samElem a i k ∧ samElem a i k < a.base + (a.depth : ℤ) * ((∏ e, a.cells e : ℕ) : ℤ) := by
  obtain ⟨h2, h3⟩ := columnMajor_bound hi
  set s : ℤ := ((∏ e, a.cells e : ℕ) : ℤ) with hs
  have hs0 : 0 ≤ s := by rw [hs]; exact Int.natCast_nonneg _
  simp only [samElem, ← hs]
  have h4 : 0 ≤ k * s := mul_nonneg h0 hs0
  have h5 : k * s + s ≤ (a.depth : ℤ) * s := by nlinarith
  constructor <;> linarith

theorem filter_pos_length {n : ℕ} (l : Fin n → ℤ) (e : Fin n) (h : l e = 0) : ((List.ofFn l).filter fun x => decide (0 < x)).length < n := by
  have hlt : ((List.ofFn l).filter fun x => decide (0 < x)).length < (List.ofFn l).length := by
    refine lt_of_le_of_ne (List.length_filter_le _ _) fun heq => ?_
    have := List.length_filter_eq_length_iff.1 heq (l e) ((List.mem_ofFn' _ _).2 ⟨e, rfl⟩)
    simp [h] at this
  simpa using hlt

/-- **C176 (lower dimensions).** When the data has fewer dimensions than `SAMRAI_MAXIMUM_DIMENSION`, the conservative update does nothing at all,
whatever the fluxes, the time step size and the depth. -/
theorem samrai_update_noop {d : ℕ} {K : Type} [Field K] (rank fuel w : ℕ) (hw : 0 < w) (state flux : SamArray d) (hr : d < rank)
    (dir : Fin rank) (hdir : dir.1 < d) (ncons : ℕ) (hs : 0 < state.depth) (hf : 0 < flux.depth)
    (hbox : ∀ e, state.lo e + 1 ≤ state.up e) (dt dx : K) (m : Mem K) :
    samUpdate rank fuel w hw state flux dir ncons dt dx m = some m := by
  have hex : ∀ a : SamArray d, 0 < a.depth → ∃ ext, samExtents (rank + 1) a = some ext ∧ ext.length = rank + 1 := by
    intro a ha
    refine ⟨_, if_neg (by omega), by simp⟩
  obtain ⟨es, h1, h2⟩ := hex state hs
  obtain ⟨ef, h3, -⟩ := hex flux hf
  unfold samUpdate samView
  rw [h1, h3]
  simp only [Option.map_some, Option.bind_eq_bind, Option.bind_some]
  have hlast : ((⟨MdSpan.mkLeft state.base es, (samIndexBox (rank + 1) state.lo state.up).lower⟩ : PatchView (rank + 1)).subview
      (samUpdateBox rank state dir ncons)).mds.ext.getD rank 0 = 0 := by
    simp only [PatchView.subview, MdSpan.subspan, sliceExtents]
    rw [zipWith_dynLength _ (by simpa [MdSpan.mkLeft] using h2) (fun e => (samUpdateBox rank state dir ncons).lower e -
      (samIndexBox (rank + 1) state.lo state.up).lower e) (fun e => (samUpdateBox rank state dir ncons).upper e -
      (samUpdateBox rank state dir ncons).lower e) ?_]
    · have hfl := filter_pos_length (fun e => (samUpdateBox rank state dir ncons).upper e - (samUpdateBox rank state dir ncons).lower e)
        (⟨d, by omega⟩ : Fin rank).castSucc (by
          simp only [samUpdateBox, IndexBox.embed, IndexBox.shrink, Fin.snoc_castSucc, Function.update_apply, samIndexBox, lt_irrefl, dite_false]
          rw [if_neg (by intro h; have := congrArg Fin.val h; simp at this; omega), if_neg (by intro h; have := congrArg Fin.val h; simp at this; omega)]
          simp)
      rw [List.getD_append_right _ _ _ _ (by simp only [List.length_map]; omega), List.getD_eq_getElem?_getD,
        List.getElem?_getD_replicate_default_eq]
    · intro e
      simp only [samUpdateBox]
      refine Fin.lastCases ?_ (fun e => ?_) e
      · simp [IndexBox.embed]
      · simp only [IndexBox.embed, IndexBox.shrink, Fin.snoc_castSucc, Function.update_apply, samIndexBox]
        by_cases hed : e = dir
        · subst hed
          simp only [if_true, hdir, dite_true]
          have := hbox ⟨e.1, hdir⟩
          omega
        · simp only [hed, if_false]
          by_cases h : e.1 < d
          · simp only [h, dite_true]
            have := hbox ⟨e.1, h⟩
            omega
          · simp [h]
  unfold updateSimd
  rw [hlast]
  rfl

/-- A patch of six cells with two components at address 0 and its fluxes at address 100. -/
def exSamState : SamArray 1 := ⟨0, fun _ => -1, fun _ => 4, 2⟩
/-- Fluxes on the faces of the six cells. -/
def exSamFlux : SamArray 1 := ⟨100, fun _ => -1, fun _ => 5, 2⟩

example : (∃ i, exSamState.Updated 0 i) ∧ (∀ i, exSamState.Updated 0 i → exSamFlux.Has i ∧ exSamFlux.Has (shift i 0 1)) ∧
    (∀ i j (k l : ℤ), exSamState.Has i → exSamFlux.Has j → 0 ≤ k → k < (2 : ℕ) → 0 ≤ l → l < (2 : ℕ) →
      samElem exSamState i k ≠ samElem exSamFlux j l) := by
  refine ⟨⟨fun _ => 0, fun e => by simp [exSamState], by simp [exSamState], by simp [exSamState]⟩, ?_, ?_⟩
  · rintro i ⟨h, h1, h2⟩
    simp only [exSamState] at h1 h2
    refine ⟨fun e => ?_, fun e => ?_⟩
    · obtain rfl : e = 0 := Subsingleton.elim _ _
      simp only [exSamFlux]; omega
    · obtain rfl : e = 0 := Subsingleton.elim _ _
      simp only [exSamFlux, shift, Function.update_self]; omega
  · intro i j k l hi hj hk0 hk hl0 hl heq
    have h1 := (samElem_within exSamState i hi k hk0 hk).2
    have h2 := (samElem_within exSamFlux j hj l hl0 hl).1
    have h3 : exSamState.base + (exSamState.depth : ℤ) * ((∏ e, exSamState.cells e : ℕ) : ℤ) = 12 := by decide +kernel
    have h4 : exSamFlux.base = 100 := rfl
    omega

/-- The update of the example: in one dimension with maximum dimension one the inner four cells are updated, with maximum dimension three none. -/
example : (samUpdate 1 10 4 (by decide) exSamState exSamFlux 0 2 (1 / 10 : ℚ) 1 (fun a => (a * a : ℤ))).map
      (fun m => [m 0, m 1, m 4, m 5, m 6, m 7, m 10, m 11]) =
      some [0, 1 - 203 / 10, 16 - 209 / 10, 25, 36, 49 - 217 / 10, 100 - 223 / 10, 121] ∧
    (samUpdate 3 10 4 (by decide) exSamState exSamFlux 0 2 (1 / 10 : ℚ) 1 (fun a => (a * a : ℤ))).map
      (fun m => [m 0, m 1, m 4, m 5, m 6, m 7, m 10, m 11]) = some [0, 1, 16, 25, 36, 49, 100, 121] := by decide +kernel

/-! ### Fluxes -/

/-- **C177 (computed faces).** With as many ghost cells as the stencil width, as `RegisterVariables(desc, method)` registers them, fluxes are
computed on the left face of every cell of the patch in the direction, but never on the right face of the last cell. -/
theorem samrai_faces {d : ℕ} (lo up : Index d) (g : ℤ) (dir : Fin d) (hg : 0 ≤ g) (c : Index d) (hc : ∀ e, lo e ≤ c e ∧ c e ≤ up e) :
    c ∈ (samFaceBox lo up g g dir).toSet ∧
    (shift c dir 1 ∈ (samFaceBox lo up g g dir).toSet ↔ c dir ≠ up dir) := by
  have hbox : ∀ f : Index d, f ∈ (samFaceBox lo up g g dir).toSet ↔
      ∀ e, if e = dir then lo e ≤ f e ∧ f e ≤ up e else lo e - g ≤ f e ∧ f e ≤ up e + g := by
    intro f
    simp only [samFaceBox, samGhostBox, samIndexBox_self, IndexBox.shrink, IndexBox.toSet, Set.mem_ofPred_eq, Function.update_apply]
    refine forall_congr' fun e => ?_
    by_cases h : e = dir
    · subst h; simp only [if_true]; omega
    · simp only [h, if_false]; omega
  rw [hbox, hbox]
  refine ⟨fun e => ?_, ?_⟩
  · have := hc e
    split <;> omega
  · constructor
    · intro h heq
      have := h dir
      simp only [if_true, shift, Function.update_self] at this
      omega
    · intro h e
      have he := hc e
      by_cases hed : e = dir
      · subst hed
        simp only [if_true, shift, Function.update_self]
        omega
      · simp only [hed, if_false, shift, Function.update_apply]
        omega

/-- **C177 (storage of the fluxes).** The computed faces are stored in the flux data with ghost width `f` for every patch in two or more dimensions if
and only if there are at most `f` ghost cells; `RegisterVariables(desc, method)` takes `f = 1`, so a stencil of width two already leaves it. -/
theorem samrai_flux_storage {d : ℕ} (lo up : Index d) (hb : ∀ e, lo e ≤ up e) (g f : ℤ) (hg : 0 ≤ g) (hf : 0 ≤ f) (dir other : Fin d) (ho : other ≠ dir) :
    (∀ i ∈ (samFaceBox lo up g g dir).toSet, i ∈ (samSideBox lo up f dir).toSet) ↔ g ≤ f := by
  simp only [samFaceBox, samSideBox, samGhostBox, samIndexBox_self, IndexBox.shrink, IndexBox.grow, IndexBox.toSet, Set.mem_ofPred_eq,
    Function.update_apply]
  constructor
  · intro h
    have h1 := h (fun e => if e = dir then lo e else lo e - g) (fun e => by
      have := hb e
      by_cases he : e = dir
      · subst he; simp only [if_true]; omega
      · simp only [he, if_false]; omega) other
    simp only [ho, if_false] at h1
    omega
  · intro hle i hi e
    have h1 := hi e
    by_cases he : e = dir
    · subst he; simp only [if_true] at h1 ⊢; omega
    · simp only [he, if_false] at h1 ⊢; omega

/-! ### Coordinates -/

section
variable {K : Type} [Field K] [CharZero K]

/-- **C178 (cell coordinates).** For a patch with cells `lo..up`, more than one, whose lower and upper coordinates are `dx` per cell apart, the
coordinate of every cell is its centre. -/
theorem samrai_cell_coordinate (xlo xup dx : K) (lo up i : ℤ) (h : lo < up) (hx : xup = xlo + ((up - lo + 1 : ℤ) : K) * dx) :
    samCellCoordinate xlo xup dx lo up i = some (xlo + (((i - lo : ℤ) : K) + 1 / 2) * dx) := by
  unfold samCellCoordinate
  rw [if_neg (by omega), hx]
  have h0 : ((up - lo : ℤ) : K) ≠ 0 := by exact_mod_cast (by omega : up - lo ≠ 0)
  rw [Option.some.injEq]
  push_cast at h0 ⊢
  generalize (up : K) - (lo : K) = z at h0 ⊢ 
  field_simp
  ring

omit [CharZero K] in
/-- **C178 (one cell).** On a patch with one cell in a direction the function divides zero by zero. -/
theorem samrai_cell_coordinate_single (xlo xup dx : K) (lo i : ℤ) : samCellCoordinate xlo xup dx lo lo i = none := by
  simp [samCellCoordinate]

/-- **C178 (agreement).** The coordinates of a cell by patch and by grid geometry are the same, for every patch of the domain whose lower
coordinate is that of its first cell. -/
theorem samrai_coordinates_agree (x0 dx : K) (lo up i : ℤ) (h : lo < up) :
    samCellCoordinate (x0 + (lo : K) * dx) (x0 + ((up + 1 : ℤ) : K) * dx) dx lo up i = some (samCellCenter x0 dx i) := by
  rw [samrai_cell_coordinate _ _ _ _ _ _ h (by push_cast; ring)]
  unfold samCellCenter
  congr 1
  push_cast
  ring

/-- **C178 (domain).** The domain of `MakeCartesianGridGeometry(n, ...)` has `n` cells in every direction, and with `dx = (x_up - x_lo) / n` the
centres of its first and last cell are half a cell away from its ends. -/
theorem samrai_domain {d : ℕ} (n : Fin d → ℤ) (hn : ∀ e, 0 < n e) (e : Fin d) (xlo xup : K) :
    (samDomain n).2 e - (samDomain n).1 e + 1 = n e ∧
    let dx := (xup - xlo) / (n e : K)
    samCellCenter xlo dx ((samDomain n).1 e) = xlo + dx / 2 ∧ samCellCenter xlo dx ((samDomain n).2 e) = xup - dx / 2 := by
  have h0 : (n e : K) ≠ 0 := by exact_mod_cast (hn e).ne'
  refine ⟨by simp [samDomain], ?_, ?_⟩
  · simp only [samCellCenter, samDomain]; push_cast; ring
  · simp only [samCellCenter, samDomain]
    push_cast
    field_simp
    ring

end

example : samCellCoordinate (K := ℚ) (-1) 1 (1 / 2) 4 7 5 = some (-1 / 4) := by decide +kernel

/-! ### Variables -/

theorem samRegisterOne_ok (pre ctx : String) (dim : ℕ) (v : String × ℕ) (db db' : SamDb) (id : ℕ) (hok : db.Ok)
    (h : samRegisterOne pre ctx dim v db = some (id, db')) :
    db'.Ok ∧ db'.vars (samVariableName pre v.1) = some (v.2, dim) ∧ db'.ids (samVariableName pre v.1) ctx = some id ∧
      (∀ n, db.vars n ≠ none → db'.vars n = db.vars n) ∧ (∀ n c i, db.ids n c = some i → db'.ids n c = some i) := by
  unfold samRegisterOne at h
  set name := samVariableName pre v.1 with hname
  have fresh : ∀ n c, db.ids n c ≠ some db.next := fun n c hc => absurd (hok.below n c _ hc) (lt_irrefl _)
  cases hv : db.vars name with
  | some p =>
    obtain ⟨dep, dm⟩ := p
    simp only [hv] at h
    by_cases hc : dep = v.2 ∧ dm = dim
    · rw [if_pos hc] at h
      cases hi : db.ids name ctx with
      | some j =>
        simp only [hi, Option.some.injEq, Prod.mk.injEq] at h
        obtain ⟨rfl, rfl⟩ := h
        exact ⟨hok, by rw [hv, hc.1, hc.2], hi, fun _ _ => rfl, fun _ _ _ h => h⟩
      | none =>
        simp only [hi, Option.some.injEq, Prod.mk.injEq] at h
        obtain ⟨rfl, rfl⟩ := h
        refine ⟨⟨?_, ?_, ?_⟩, by simp only; rw [hv, hc.1, hc.2], by simp, fun _ _ => rfl, ?_⟩
        · intro n c i hh
          simp only at hh ⊢
          split at hh
          · cases hh; omega
          · have := hok.below _ _ _ hh; omega
        · intro n c n' c' i h1 h2
          simp only at h1 h2
          split at h1 <;> split at h2
          · next a b => exact ⟨a.1.trans b.1.symm, a.2.trans b.2.symm⟩
          · cases h1; exact absurd h2 (fresh _ _)
          · cases h2; exact absurd h1 (fresh _ _)
          · exact hok.inj _ _ _ _ _ h1 h2
        · intro n c i hh
          simp only at hh ⊢
          split at hh
          · next a => rw [a.1, hv]; simp
          · exact hok.known _ _ _ hh
        · intro n c i hh
          simp only
          rw [if_neg]
          · exact hh
          · rintro ⟨rfl, rfl⟩; rw [hi] at hh; cases hh
    · rw [if_neg hc] at h; cases h
  | none =>
    simp only [hv, Option.some.injEq, Prod.mk.injEq] at h
    obtain ⟨rfl, rfl⟩ := h
    have hni : ∀ c, db.ids name c = none := fun c => by
      cases hh : db.ids name c with
      | none => rfl
      | some j => exact absurd hv (hok.known _ _ _ hh)
    refine ⟨⟨?_, ?_, ?_⟩, by simp, by simp, ?_, ?_⟩
    · intro n c i hh
      simp only at hh ⊢
      split at hh
      · cases hh; omega
      · have := hok.below _ _ _ hh; omega
    · intro n c n' c' i h1 h2
      simp only at h1 h2
      split at h1 <;> split at h2
      · next a b => exact ⟨a.1.trans b.1.symm, a.2.trans b.2.symm⟩
      · cases h1; exact absurd h2 (fresh _ _)
      · cases h2; exact absurd h1 (fresh _ _)
      · exact hok.inj _ _ _ _ _ h1 h2
    · intro n c i hh
      simp only at hh ⊢
      split
      · simp
      · next hne =>
        split at hh
        · next a => exact absurd a.1 hne
        · exact hok.known _ _ _ hh
    · intro n hn
      simp only
      rw [if_neg (by rintro rfl; exact hn hv)]
    · intro n c i hh
      simp only
      rw [if_neg]
      · exact hh
      · rintro ⟨rfl, rfl⟩; rw [hni] at hh; cases hh

/-- Registered variables stay registered with their ids, and all variables of the list are registered with the ids that were returned. -/
theorem samRegister_ok (pre ctx : String) (dim : ℕ) (vs : List (String × ℕ)) (db db' : SamDb) (ids : List ℕ) (hok : db.Ok)
    (h : samRegister pre ctx dim vs db = some (ids, db')) :
    db'.Ok ∧ ids.length = vs.length ∧
      (∀ k (hk : k < vs.length), db'.vars (samVariableName pre vs[k].1) = some (vs[k].2, dim) ∧
        db'.ids (samVariableName pre vs[k].1) ctx = ids[k]?) ∧
      (∀ n, db.vars n ≠ none → db'.vars n = db.vars n) ∧ (∀ n c i, db.ids n c = some i → db'.ids n c = some i) := by
  induction vs generalizing db ids with
  | nil =>
    simp only [samRegister, Option.some.injEq, Prod.mk.injEq] at h
    obtain ⟨rfl, rfl⟩ := h
    exact ⟨hok, rfl, fun k hk => absurd hk (by simp), fun _ _ => rfl, fun _ _ _ h => h⟩
  | cons v vs ih =>
    simp only [samRegister, Option.bind_eq_bind] at h
    cases h1 : samRegisterOne pre ctx dim v db with
    | none => rw [h1] at h; cases h
    | some p =>
      obtain ⟨id, db1⟩ := p
      rw [h1, Option.bind_some] at h
      cases h2 : samRegister pre ctx dim vs db1 with
      | none => simp [h2] at h
      | some q =>
        obtain ⟨ids2, db2⟩ := q
        simp only [h2, Option.bind_some, pure, Option.some.injEq, Prod.mk.injEq] at h
        obtain ⟨rfl, rfl⟩ := h
        obtain ⟨k1, k2, k3, k4, k5⟩ := samRegisterOne_ok pre ctx dim v db db1 id hok h1
        obtain ⟨j1, j2, j3, j4, j5⟩ := ih db1 ids2 k1 h2
        refine ⟨j1, by simp [j2], fun k hk => ?_, fun n hn => ?_, fun n c i hh => j5 _ _ _ (k5 _ _ _ hh)⟩
        · cases k with
          | zero =>
            simp only [List.getElem_cons_zero, List.getElem?_cons_zero]
            exact ⟨by rw [j4 _ (by rw [k2]; simp), k2], j5 _ _ _ k3⟩
          | succ k =>
            simp only [List.getElem_cons_succ, List.getElem?_cons_succ]
            exact j3 k (by simpa using hk)
        · rw [j4 _ (by rw [k4 n hn]; exact hn), k4 n hn]

/-- **C179 (distinct ids).** Variables with different names get different ids, in every database. -/
theorem samrai_ids_distinct (pre ctx : String) (dim : ℕ) (vs : List (String × ℕ)) (db db' : SamDb) (ids : List ℕ) (hok : db.Ok)
    (h : samRegister pre ctx dim vs db = some (ids, db')) (hn : (vs.map fun v => samVariableName pre v.1).Nodup) : ids.Nodup := by
  obtain ⟨k1, k2, k3, -, -⟩ := samRegister_ok pre ctx dim vs db db' ids hok h
  rw [List.nodup_iff_getElem?_ne_getElem?]
  intro i j hij hj heq
  have hjv : j < vs.length := k2 ▸ hj
  have hiv : i < vs.length := hij.trans hjv
  have h1 := (k3 i hiv).2
  have h2 := (k3 j hjv).2
  rw [List.getElem?_eq_getElem (k2 ▸ hiv)] at h1
  rw [← heq, List.getElem?_eq_getElem (k2 ▸ hiv)] at h2
  have := (k1.inj _ _ _ _ _ h1 h2).1
  have h3 := (List.nodup_iff_injective_get.1 hn) (a₁ := ⟨i, by simpa using hiv⟩) (a₂ := ⟨j, by simpa using hjv⟩) (by simpa using this)
  simp at h3
  omega

/-- **C179 (registering again).** Registering the same variables a second time - before or after any other registrations that succeed - returns the
same ids and changes nothing. -/
theorem samrai_register_again (pre ctx pre' ctx' : String) (dim dim' : ℕ) (vs ws : List (String × ℕ)) (db db' db'' : SamDb)
    (ids ids' : List ℕ) (hok : db.Ok) (h : samRegister pre ctx dim vs db = some (ids, db'))
    (h' : samRegister pre' ctx' dim' ws db' = some (ids', db'')) :
    samRegister pre ctx dim vs db'' = some (ids, db'') := by
  obtain ⟨k1, k2, k3, -, -⟩ := samRegister_ok pre ctx dim vs db db' ids hok h
  obtain ⟨-, -, -, j4, j5⟩ := samRegister_ok pre' ctx' dim' ws db' db'' ids' k1 h'
  have hall : ∀ k (hk : k < vs.length), db''.vars (samVariableName pre vs[k].1) = some (vs[k].2, dim) ∧
      db''.ids (samVariableName pre vs[k].1) ctx = ids[k]? := by
    intro k hk
    obtain ⟨a, b⟩ := k3 k hk
    rw [List.getElem?_eq_getElem (k2 ▸ hk)] at b ⊢
    exact ⟨by rw [j4 _ (by rw [a]; simp), a], j5 _ _ _ b⟩
  clear h h' k3 j4 j5 k1 hok
  induction vs generalizing ids with
  | nil => simp only [List.length_nil, List.length_eq_zero_iff] at k2; subst k2; rfl
  | cons v vs ih =>
    cases ids with
    | nil => simp at k2
    | cons id ids =>
      have h0 := hall 0 (by simp)
      simp only [List.getElem_cons_zero, List.getElem?_cons_zero] at h0
      have h1 : samRegisterOne pre ctx dim v db'' = some (id, db'') := by
        simp [samRegisterOne, h0.1, h0.2]
      have h2 := ih ids (by simpa using k2) fun k hk => by
        have := hall (k + 1) (by simpa using hk)
        simpa using this
      simp [samRegister, h1, h2]

/-- **C179 (conflicts).** A variable whose name is in use with another depth or dimension is rejected: nothing is registered. -/
theorem samrai_register_conflict (pre ctx : String) (dim dep dm : ℕ) (vs : List (String × ℕ)) (db : SamDb) (hok : db.Ok) (v : String × ℕ)
    (hv : v ∈ vs) (hc : db.vars (samVariableName pre v.1) = some (dep, dm)) (hd : dep ≠ v.2 ∨ dm ≠ dim) :
    samRegister pre ctx dim vs db = none := by
  by_contra hne
  obtain ⟨⟨ids, db'⟩, h⟩ := Option.ne_none_iff_exists'.1 hne
  obtain ⟨-, -, k3, k4, -⟩ := samRegister_ok pre ctx dim vs db db' ids hok h
  obtain ⟨k, hk, rfl⟩ := List.getElem_of_mem hv
  have h1 := (k3 k hk).1
  rw [k4 _ (by rw [hc]; simp), hc] at h1
  simp only [Option.some.injEq, Prod.mk.injEq] at h1
  rcases hd with h | h
  · exact h h1.1
  · exact h h1.2

/-- **C179 (prefixes).** Different prefixes do not separate variables: with prefix `a`, the variable `b_c` is the variable `c` with prefix `a_b`. -/
theorem samrai_prefix_collision (a b c : String) (ha : a ≠ "") (hb : a ++ "_" ++ b ≠ "") :
    samVariableName a (b ++ "_" ++ c) = samVariableName (a ++ "_" ++ b) c := by
  simp only [samVariableName, ha, hb, if_false]
  simp only [String.append_assoc]

/-- An empty database and the variables of the two-dimensional Euler equations. -/
def exSamDb : SamDb := ⟨fun _ => none, fun _ _ => none, 0⟩

example : exSamDb.Ok ∧ (samRegister "" "current" 2 [("Density", 1), ("Momentum", 2), ("Energy", 1)] exSamDb).map Prod.fst = some [0, 1, 2] ∧
    ((samRegister "" "current" 2 [("Density", 1), ("Momentum", 2)] exSamDb).bind fun r => samRegister "" "current" 3 [("Density", 1)] r.2).isNone :=
  ⟨⟨by simp [exSamDb], by simp [exSamDb], by simp [exSamDb]⟩, by decide +kernel, by decide +kernel⟩

end Fub
