import Verif.Model.Layout
import Verif.Spec.Layout
import Mathlib.Tactic.Linarith
import Mathlib.Tactic.Ring
import Mathlib.Tactic.FinCases
import Mathlib.Data.List.GetD
import Mathlib.Algebra.BigOperators.Group.List.Lemmas
import Mathlib.Algebra.GroupWithZero.Nat
import Mathlib.Algebra.BigOperators.Ring.List
import Mathlib.Algebra.Order.Ring.Abs
import Mathlib.Data.Fin.VecNotation
import Mathlib.Data.List.OfFn

/-! C20 (layouts), C21 (sub-arrays). -/

namespace Fub

/-! ### Recursions of the mappings -/

theorem dot_map_mul (e : Nat) (ss : List Nat) (is : List Int) : dot (ss.map (e * ·)) is = e * dot ss is := by
  induction ss generalizing is with
  | nil => simp [dot]
  | cons s ss ih =>
    cases is with
    | nil => simp [dot]
    | cons i is =>
      have := ih is
      simp only [dot, List.map_cons, List.zipWith_cons_cons, List.sum_cons] at this ⊢
      rw [this]; push_cast; ring

@[simp] theorem dot_cons (s : Nat) (ss : List Nat) (i : Int) (is : List Int) : dot (s :: ss) (i :: is) = s * i + dot ss is := rfl
@[simp] theorem dot_nil (is : List Int) : dot [] is = 0 := by simp [dot]

theorem stridesLeft_cons (e : Nat) (es : List Nat) : stridesLeft (e :: es) = 1 :: (stridesLeft es).map (e * ·) := by
  simp only [stridesLeft, List.length_cons, List.range_succ_eq_map, List.map_cons, List.map_map]
  refine congrArg₂ _ (by simp [strideLeft]) (List.map_congr_left fun r _ => ?_)
  simp [strideLeft]

theorem stridesRight_cons (e : Nat) (es : List Nat) : stridesRight (e :: es) = es.prod :: stridesRight es := by
  simp only [stridesRight, List.length_cons, List.range_succ_eq_map, List.map_cons, List.map_map]
  refine congrArg₂ _ (by simp [strideRight]) (List.map_congr_left fun r _ => ?_)
  simp [strideRight]

theorem mapLeft_cons (e : Nat) (es : List Nat) (i : Int) (is : List Int) : mapLeft (e :: es) (i :: is) = i + e * mapLeft es is := by
  simp [mapLeft, stridesLeft_cons, dot_map_mul]

theorem mapRight_cons (e : Nat) (es : List Nat) (i : Int) (is : List Int) :
    mapRight (e :: es) (i :: is) = (es.prod : Nat) * i + mapRight es is := by
  simp [mapRight, stridesRight_cons]

theorem radix_bound {e p : Int} {i q : Int} (h0 : 0 ≤ i) (h1 : i < e) (h2 : 0 ≤ q) (h3 : q < p) : 0 ≤ i + e * q ∧ i + e * q < e * p := by
  constructor
  · have : 0 ≤ e * q := mul_nonneg (by omega) h2
    omega
  · have : e * (q + 1) ≤ e * p := mul_le_mul_of_nonneg_left (by omega) (by omega)
    rw [mul_add] at this; omega

theorem radix_inj {e i q j r : Int} (h0 : 0 ≤ i) (h1 : i < e) (h2 : 0 ≤ j) (h3 : j < e) (h : i + e * q = j + e * r) : i = j ∧ q = r := by
  have hi : (i + e * q) % e = i := by rw [Int.add_mul_emod_self_left]; exact Int.emod_eq_of_lt h0 h1
  have hj : (j + e * r) % e = j := by rw [Int.add_mul_emod_self_left]; exact Int.emod_eq_of_lt h2 h3
  have hij : i = j := by rw [← hi, ← hj, h]
  refine ⟨hij, ?_⟩
  subst hij
  have : e * q = e * r := by omega
  exact mul_left_cancel₀ (by omega) this

/-! ### C20 -/

/-- **C20 (layout_left).** For any rank and extents the offset map is a bijection from the in-range multi-indices onto
`[0, required_span_size)`. -/
theorem mapLeft_bijective (ext : List Nat) :
    (∀ is, InRange ext is → 0 ≤ mapLeft ext is ∧ mapLeft ext is < sizeOfExtents ext) ∧
    (∀ is js, InRange ext is → InRange ext js → mapLeft ext is = mapLeft ext js → is = js) ∧
    (∀ k : Int, 0 ≤ k → k < sizeOfExtents ext → ∃ is, InRange ext is ∧ mapLeft ext is = k) := by
  induction ext with
  | nil =>
    refine ⟨fun is h => ?_, fun is js h1 h2 _ => ?_, fun k h0 h1 => ⟨[], .nil, ?_⟩⟩
    · simp [mapLeft, stridesLeft, sizeOfExtents]
    · cases h1; cases h2; rfl
    · simp only [sizeOfExtents, List.prod_nil] at h1; simp [mapLeft, stridesLeft]; omega
  | cons e es ih =>
    obtain ⟨ih1, ih2, ih3⟩ := ih
    have hsize : ((sizeOfExtents (e :: es) : Nat) : Int) = e * (sizeOfExtents es : Nat) := by simp [sizeOfExtents]
    refine ⟨fun is h => ?_, fun is js h1 h2 heq => ?_, fun k h0 h1 => ?_⟩
    · cases h with
      | cons hi hr =>
        rw [mapLeft_cons, hsize]
        exact radix_bound hi.1 hi.2 (ih1 _ hr).1 (ih1 _ hr).2
    · cases h1 with
      | cons hi hr =>
        cases h2 with
        | cons hj hr' =>
          rw [mapLeft_cons, mapLeft_cons] at heq
          obtain ⟨rfl, hq⟩ := radix_inj hi.1 hi.2 hj.1 hj.2 heq
          rw [ih2 _ _ hr hr' hq]
    · rw [hsize] at h1
      have he : 0 < (e : Int) := by
        by_contra hc
        have : (e : Int) = 0 := by omega
        rw [this] at h1; omega
      obtain ⟨is, hr, hk⟩ := ih3 (k / e) (Int.ediv_nonneg h0 he.le) (Int.ediv_lt_of_lt_mul he (by rwa [mul_comm] at h1))
      refine ⟨k % e :: is, .cons ⟨Int.emod_nonneg _ he.ne', Int.emod_lt_of_pos _ he⟩ hr, ?_⟩
      rw [mapLeft_cons, hk, Int.emod_add_mul_ediv]

/-- **C20 (layout_right).** The same for `layout_right`. -/
theorem mapRight_bijective (ext : List Nat) :
    (∀ is, InRange ext is → 0 ≤ mapRight ext is ∧ mapRight ext is < sizeOfExtents ext) ∧
    (∀ is js, InRange ext is → InRange ext js → mapRight ext is = mapRight ext js → is = js) ∧
    (∀ k : Int, 0 ≤ k → k < sizeOfExtents ext → ∃ is, InRange ext is ∧ mapRight ext is = k) := by
  induction ext with
  | nil =>
    refine ⟨fun is h => ?_, fun is js h1 h2 _ => ?_, fun k h0 h1 => ⟨[], .nil, ?_⟩⟩
    · simp [mapRight, stridesRight, sizeOfExtents]
    · cases h1; cases h2; rfl
    · simp only [sizeOfExtents, List.prod_nil] at h1; simp [mapRight, stridesRight]; omega
  | cons e es ih =>
    obtain ⟨ih1, ih2, ih3⟩ := ih
    have hsize : ((sizeOfExtents (e :: es) : Nat) : Int) = (sizeOfExtents es : Nat) * e := by simp [sizeOfExtents, mul_comm]
    have hp : ((es.prod : Nat) : Int) = (sizeOfExtents es : Nat) := rfl
    refine ⟨fun is h => ?_, fun is js h1 h2 heq => ?_, fun k h0 h1 => ?_⟩
    · cases h with
      | cons hi hr =>
        rw [mapRight_cons, hsize, hp, add_comm]
        exact radix_bound (ih1 _ hr).1 (ih1 _ hr).2 hi.1 hi.2
    · cases h1 with
      | cons hi hr =>
        cases h2 with
        | cons hj hr' =>
          rw [mapRight_cons, mapRight_cons, hp, add_comm, add_comm (_ * _) (mapRight es _)] at heq
          obtain ⟨hq, rfl⟩ := radix_inj (ih1 _ hr).1 (ih1 _ hr).2 (ih1 _ hr').1 (ih1 _ hr').2 heq
          rw [ih2 _ _ hr hr' hq]
    · rw [hsize] at h1
      have he : 0 < ((sizeOfExtents es : Nat) : Int) := by
        by_contra hc
        have : ((sizeOfExtents es : Nat) : Int) = 0 := by omega
        rw [this] at h1; omega
      obtain ⟨is, hr, hk⟩ := ih3 (k % (sizeOfExtents es : Nat)) (Int.emod_nonneg _ he.ne') (Int.emod_lt_of_pos _ he)
      refine ⟨k / (sizeOfExtents es : Nat) :: is,
        .cons ⟨Int.ediv_nonneg h0 he.le, Int.ediv_lt_of_lt_mul he (by rwa [mul_comm] at h1)⟩ hr, ?_⟩
      rw [mapRight_cons, hk, hp, add_comm, Int.emod_add_mul_ediv]

theorem dot_bound (m : Nat) (ext str : List Nat) (is : List Int) (hn : NestedStrides m ext str) (hr : InRange ext is) :
    0 ≤ dot str is ∧ dot str is + m ≤ max m (requiredStride ext str) := by
  induction ext generalizing m str is with
  | nil =>
    cases hr
    cases str with
    | nil => simp [requiredStride]
    | cons s ss => exact hn.elim
  | cons e es ih =>
    cases hr with
    | cons hi hr =>
      cases str with
      | nil => exact hn.elim
      | cons s ss =>
        rename_i i is
        obtain ⟨h1, h2⟩ := hn
        obtain ⟨ha, hb⟩ := ih (e * s) ss is h2 hr
        have hsi : (0 : Int) ≤ s * i := mul_nonneg (by omega) hi.1
        have hse : (s : Int) * i + s ≤ s * e := by
          have : (s : Int) * (i + 1) ≤ s * e := mul_le_mul_of_nonneg_left (by omega) (by omega)
          rwa [mul_add, mul_one] at this
        have hreq : requiredStride (e :: es) (s :: ss) = max (e * s) (requiredStride es ss) := rfl
        rw [dot_cons, hreq]
        push_cast at hb hse ⊢
        rw [mul_comm (s : Int) e] at hse
        omega

theorem dot_separated (m : Nat) (ext str : List Nat) (is js : List Int) (hn : NestedStrides m ext str) (hr : InRange ext is)
    (hr' : InRange ext js) (hne : is ≠ js) : (m : Int) ≤ |dot str is - dot str js| := by
  induction ext generalizing m str is js with
  | nil => cases hr; cases hr'; exact absurd rfl hne
  | cons e es ih =>
    cases hr with
    | cons hi hr =>
      cases hr' with
      | cons hj hr' =>
        cases str with
        | nil => exact hn.elim
        | cons s ss =>
          rename_i i is j js
          obtain ⟨h1, h2⟩ := hn
          rw [dot_cons, dot_cons]
          by_cases ht : is = js
          · subst ht
            have hij : i ≠ j := fun h => hne (by rw [h])
            have : (s : Int) * i + dot ss is - (s * j + dot ss is) = s * (i - j) := by ring
            rw [this, abs_mul]
            have h3 : (1 : Int) ≤ |i - j| := Int.one_le_abs (by omega)
            have h4 : |(s : Int)| = s := abs_of_nonneg (by omega)
            rw [h4]
            calc (m : Int) ≤ s := by exact_mod_cast h1
              _ = s * 1 := (mul_one _).symm
              _ ≤ s * |i - j| := mul_le_mul_of_nonneg_left h3 (by omega)
          · have h3 := ih (e * s) ss is js h2 hr hr' ht
            have h5 : (s : Int) * |i - j| + s ≤ s * e := by
              have : |i - j| + 1 ≤ e := by rcases abs_cases (i - j) with h | h <;> omega
              have : (s : Int) * (|i - j| + 1) ≤ s * e := mul_le_mul_of_nonneg_left this (by omega)
              rwa [mul_add, mul_one] at this
            have h6 : |(s : Int) * (i - j)| = s * |i - j| := by rw [abs_mul, abs_of_nonneg (by omega : (0 : Int) ≤ s)]
            have h7 : (s : Int) * i + dot ss is - (s * j + dot ss js) = (dot ss is - dot ss js) - -(s * (i - j)) := by ring
            have h8 := abs_sub_abs_le_abs_sub (dot ss is - dot ss js) (-((s : Int) * (i - j)))
            rw [abs_neg, h6] at h8
            rw [h7]
            push_cast at h3
            rw [mul_comm (s : Int) e] at h5
            omega

/-- **C20 (layout_stride, partial).** If the rows, planes, ... of the array do not overlap, then distinct in-range multi-indices have distinct
offsets, and all offsets are below `required_span_size`. Without the assumption this is false, see `strided_overlap`. -/
theorem strided_partial (ext str : List Nat) (hn : NestedStrides 1 ext str) (hne : ext ≠ []) :
    (∀ is, InRange ext is → 0 ≤ dot str is ∧ dot str is < requiredStride ext str) ∧
    (∀ is js, InRange ext is → InRange ext js → dot str is = dot str js → is = js) := by
  constructor
  · intro is hr
    obtain ⟨h1, h2⟩ := dot_bound 1 ext str is hn hr
    refine ⟨h1, ?_⟩
    have hpos : 1 ≤ requiredStride ext str := by
      cases hr with
      | nil => exact absurd rfl hne
      | cons hi _ =>
        cases str with
        | nil => exact hn.elim
        | cons s ss =>
          rename_i e _ es _ _
          have : 1 ≤ e * s := Nat.mul_pos (by omega) hn.1
          exact le_trans this (le_max_left _ _)
    omega
  · intro is js h1 h2 heq
    by_contra hc
    have := dot_separated 1 ext str is js hn h1 h2 hc
    rw [heq] at this
    simp at this

/-- **C20 is false for arbitrary strides.** `layout_stride` claims to be unique (`is_always_unique`), but two in-range indices of a 2x2 array with
strides (1, 1) have the same offset, and one of them is at an offset that is not below `required_span_size`. -/
theorem strided_overlap : InRange [2, 2] [0, 1] ∧ InRange [2, 2] [1, 0] ∧ InRange [2, 2] [1, 1] ∧
    dot [1, 1] [0, 1] = dot [1, 1] [1, 0] ∧ requiredStride [2, 2] [1, 1] = 2 ∧ dot [1, 1] [1, 1] = 2 := by
  refine ⟨?_, ?_, ?_, rfl, rfl, rfl⟩ <;> repeat' constructor

/-- `layout_left` strides are nested: the theorem about strided arrays covers views of ordinary arrays. -/
theorem nested_left (ext : List Nat) (h : ∀ e ∈ ext, 0 < e) : NestedStrides 1 ext (stridesLeft ext) := by
  have key : ∀ (ext : List Nat) (m c : Nat), (∀ e ∈ ext, 0 < e) → m ≤ c → NestedStrides m ext ((stridesLeft ext).map (c * ·)) := by
    intro ext
    induction ext with
    | nil => intros; trivial
    | cons e es ih =>
      intro m c h hm
      rw [stridesLeft_cons]
      refine ⟨by simpa using hm, ?_⟩
      have := ih (e * (c * 1)) (c * e) (fun x hx => h x (by simp [hx])) (by rw [mul_one, mul_comm])
      simpa [List.map_map, Function.comp_def, mul_assoc] using this
  simpa using key ext 1 1 h le_rfl

example : NestedStrides 1 [3, 4, 2] (stridesLeft [3, 4, 2]) ∧ NestedStrides 1 [2, 3] [1, 10] ∧ InRange [3, 4, 2] [2, 0, 1] ∧
    mapLeft [3, 4, 2] [2, 0, 1] = 14 ∧ mapRight [3, 4, 2] [2, 0, 1] = 17 := by
  refine ⟨nested_left _ (by decide), ⟨by decide, by decide, trivial⟩, by repeat' constructor, rfl, rfl⟩

/-! ### C21 -/

theorem sliceRank_all (ss : List Slice) : sliceRank (.all :: ss) = sliceRank ss + 1 := by
  rw [sliceRank, List.filter_cons_of_pos rfl, List.length_cons]; rfl
theorem sliceRank_idx (i : Int) (ss : List Slice) : sliceRank (.idx i :: ss) = sliceRank ss := by
  rw [sliceRank, List.filter_cons_of_neg (by simp [Slice.isRange])]; rfl
theorem sliceRank_range (a b : Int) (ss : List Slice) : sliceRank (.range a b :: ss) = sliceRank ss + 1 := by
  rw [sliceRank, List.filter_cons_of_pos rfl, List.length_cons]; rfl

theorem dot_origin (str : List Nat) (ss : List Slice) (js : List Int) (hl : str.length = ss.length) (hj : js.length = sliceRank ss) :
    dot str (ss.map Slice.origin) + dot (sliceStrides str ss) js = dot str (selectIndex ss js) := by
  induction ss generalizing str js with
  | nil =>
    have : str = [] := List.length_eq_zero_iff.1 hl
    subst this; simp [sliceStrides]
  | cons s ss ih =>
    obtain ⟨t, str, rfl⟩ : ∃ t str', str = t :: str' := by
      cases str with
      | nil => simp at hl
      | cons t str' => exact ⟨t, str', rfl⟩
    have hl' : str.length = ss.length := by simpa using hl
    cases s with
    | idx i =>
      have := ih str js hl' (by simpa [sliceRank_all, sliceRank_idx, sliceRank_range] using hj)
      simp only [List.map_cons, dot_cons, selectIndex, sliceStrides, List.zip_cons_cons, Slice.origin] at this ⊢
      rw [List.filter_cons_of_neg (by simp [Slice.isRange])]
      linarith
    | all =>
      cases js with
      | nil => simp [sliceRank_all, sliceRank_idx, sliceRank_range] at hj
      | cons j js =>
        have := ih str js hl' (by simpa [sliceRank_all, sliceRank_idx, sliceRank_range] using hj)
        simp only [List.map_cons, dot_cons, selectIndex, sliceStrides, List.zip_cons_cons, Slice.origin] at this ⊢
        rw [List.filter_cons_of_pos (by simp [Slice.isRange]), List.map_cons, dot_cons]
        linarith
    | range a b =>
      cases js with
      | nil => simp [sliceRank_all, sliceRank_idx, sliceRank_range] at hj
      | cons j js =>
        have := ih str js hl' (by simpa [sliceRank_all, sliceRank_idx, sliceRank_range] using hj)
        simp only [List.map_cons, dot_cons, selectIndex, sliceStrides, List.zip_cons_cons, Slice.origin] at this ⊢
        rw [List.filter_cons_of_pos (by simp [Slice.isRange]), List.map_cons, dot_cons, mul_add]
        linarith

/-- **C21 (elements).** The element with index `js` of a sub-array is the element of the original at the index the slices select, for
any array, any slices (also empty ranges) and any `js` with one coordinate per `all` and range slice. -/
theorem subspan_elem (m : MdSpan) (ss : List Slice) (js : List Int) (hl : m.str.length = ss.length) (hj : js.length = sliceRank ss) :
    (m.subspan ss).addr js = m.addr (selectIndex ss js) := by
  simp only [MdSpan.subspan, MdSpan.addr]
  rw [add_assoc, dot_origin _ _ _ hl hj]

theorem sliceExtents_aux (ext : List Nat) (ss : List Slice) (hv : List.Forall₂ Slice.Valid ext ss) :
    ((List.zipWith Slice.dynLength ext ss).filter (fun l => decide (0 < l))).map Int.toNat =
      (selectedExtents ext ss).filter (fun l => decide (0 < l)) ∧ (selectedExtents ext ss).length = sliceRank ss := by
  induction hv with
  | nil => simp [selectedExtents, sliceRank]
  | @cons e s es ss h _ ih =>
    obtain ⟨ih1, ih2⟩ := ih
    cases s with
    | all =>
      constructor
      · simp only [List.zipWith_cons_cons, selectedExtents]
        have : Slice.dynLength e .all = e := by simp [Slice.dynLength, Slice.mapToLength]
        rw [this]
        by_cases he : 0 < e
        · rw [List.filter_cons_of_pos (by simpa using he), List.filter_cons_of_pos (by simpa using he), List.map_cons, ih1]; simp
        · rw [List.filter_cons_of_neg (by simpa using he), List.filter_cons_of_neg (by simpa using he), ih1]
      · simpa [selectedExtents, sliceRank_all, sliceRank_idx, sliceRank_range] using ih2
    | idx i =>
      constructor
      · simp only [List.zipWith_cons_cons, selectedExtents]
        have : Slice.dynLength e (.idx i) = 0 := by simp [Slice.dynLength, Slice.mapToLength]
        rw [this, List.filter_cons_of_neg (by simp), ih1]
      · simpa [selectedExtents, sliceRank_all, sliceRank_idx, sliceRank_range] using ih2
    | range a b =>
      have h' : 0 ≤ a ∧ a ≤ b ∧ b ≤ e := h
      constructor
      · simp only [List.zipWith_cons_cons, selectedExtents]
        have : Slice.dynLength e (.range a b) = b - a := by simp [Slice.dynLength, Slice.mapToLength]; omega
        rw [this]
        by_cases he : 0 < b - a
        · rw [List.filter_cons_of_pos (by simpa using he), List.filter_cons_of_pos (by simpa using he), List.map_cons, ih1]
        · rw [List.filter_cons_of_neg (by simpa using he), List.filter_cons_of_neg (by simpa using he), ih1]
      · simpa [selectedExtents, sliceRank_all, sliceRank_idx, sliceRank_range] using ih2

/-- **C21 (extents, partial).** The sub-array has the extents of the selection if the selection is not empty. For empty selections this is
false, see `subspan_empty_misplaced`. -/
theorem subspan_ext_partial (m : MdSpan) (ss : List Slice) (hv : List.Forall₂ Slice.Valid m.ext ss)
    (hpos : ∀ l ∈ selectedExtents m.ext ss, 0 < l) : (m.subspan ss).ext = selectedExtents m.ext ss := by
  obtain ⟨h1, h2⟩ := sliceExtents_aux m.ext ss hv
  simp only [MdSpan.subspan, sliceExtents, h1]
  rw [List.filter_eq_self.2 (by simpa using hpos), h2]
  simp

/-- **C21 (number of elements).** The sub-array always has as many dimensions and elements as the selection, also if the selection is empty. -/
theorem subspan_size (m : MdSpan) (ss : List Slice) (hv : List.Forall₂ Slice.Valid m.ext ss) :
    (m.subspan ss).ext.length = (selectedExtents m.ext ss).length ∧ (m.subspan ss).ext.prod = (selectedExtents m.ext ss).prod := by
  obtain ⟨h1, h2⟩ := sliceExtents_aux m.ext ss hv
  have hle : ((selectedExtents m.ext ss).filter (fun l => decide (0 < l))).length ≤ sliceRank ss := by
    rw [← h2]; exact List.length_filter_le _ _
  constructor
  · simp only [MdSpan.subspan, sliceExtents, h1, List.length_append, List.length_replicate]
    omega
  · by_cases hpos : ∀ l ∈ selectedExtents m.ext ss, 0 < l
    · rw [subspan_ext_partial m ss hv hpos]
    · push Not at hpos
      obtain ⟨l, hl, h0⟩ := hpos
      have h0 : l = 0 := by omega
      subst h0
      rw [List.prod_eq_zero hl]
      simp only [MdSpan.subspan, sliceExtents, h1, List.prod_append, List.prod_replicate]
      have hlt : ((selectedExtents m.ext ss).filter (fun l => decide (0 < l))).length < sliceRank ss := by
        rw [← h2]
        refine lt_of_le_of_ne (List.length_filter_le _ _) fun h => ?_
        have := List.length_filter_eq_length_iff.1 h 0 hl
        simp at this
      rw [zero_pow (by omega), mul_zero]

/-- **C21 (inside).** In-range indices of the sub-array select in-range indices of the original. -/
theorem select_inRange (ext : List Nat) (ss : List Slice) (hv : List.Forall₂ Slice.Valid ext ss) (js : List Int)
    (hj : InRange (selectedExtents ext ss) js) : InRange ext (selectIndex ss js) := by
  induction hv generalizing js with
  | nil => simp only [selectIndex]; exact .nil
  | @cons e s es ss h _ ih =>
    cases s with
    | all =>
      cases hj with
      | cons hj0 hj => exact .cons hj0 (ih _ hj)
    | idx i => exact .cons h (ih _ hj)
    | range a b =>
      have h' : 0 ≤ a ∧ a ≤ b ∧ b ≤ e := h
      cases hj with
      | cons hj0 hj => exact .cons (by omega) (ih _ hj)

/-- **C21 is false for empty ranges.** Selecting rows `[2, 2)` and columns `[1, 4)` of a 4x5 array gives extents (3, 0) instead of (0, 3). -/
theorem subspan_empty_misplaced : List.Forall₂ Slice.Valid [4, 5] [.range 2 2, .range 1 4] ∧
    selectedExtents [4, 5] [.range 2 2, .range 1 4] = [0, 3] ∧
    ((MdSpan.mkLeft 0 [4, 5]).subspan [.range 2 2, .range 1 4]).ext = [3, 0] := by
  refine ⟨.cons ⟨by decide, by decide, by decide⟩ (.cons ⟨by decide, by decide, by decide⟩ .nil), rfl, rfl⟩

/-- A sub-array of an array with nested strides has nested strides, so `strided_partial` applies to it. -/
theorem nested_subspan (m : Nat) (ext str : List Nat) (ss : List Slice) (hn : NestedStrides m ext str)
    (hv : List.Forall₂ Slice.Valid ext ss) (hpos : ∀ e ∈ ext, 0 < e) : NestedStrides m (selectedExtents ext ss) (sliceStrides str ss) := by
  induction hv generalizing m str with
  | nil =>
    cases str with
    | nil => trivial
    | cons _ _ => exact hn.elim
  | @cons e s es ss h _ ih =>
    cases str with
    | nil => exact hn.elim
    | cons t str =>
      obtain ⟨h1, h2⟩ := hn
      have hmono : ∀ (ext str : List Nat) (a b : Nat), a ≤ b → NestedStrides b ext str → NestedStrides a ext str := by
        intro ext str a b hab hb
        cases ext <;> cases str <;> simp only [NestedStrides] at hb ⊢
        exact ⟨le_trans hab hb.1, hb.2⟩
      have ih' := ih (e * t) str h2 (fun x hx => hpos x (by simp [hx]))
      cases s with
      | all => simpa [selectedExtents, sliceStrides, Slice.isRange, NestedStrides, h1] using ih'
      | idx i =>
        have he : 0 < e := hpos e (by simp)
        have hle : m ≤ e * t := le_trans h1 (Nat.le_mul_of_pos_left t he)
        simpa [selectedExtents, sliceStrides, Slice.isRange] using hmono _ _ _ _ hle ih'
      | range a b =>
        have h' : 0 ≤ a ∧ a ≤ b ∧ b ≤ e := h
        have hle : (b - a).toNat * t ≤ e * t := Nat.mul_le_mul_right t (by omega)
        have := hmono _ _ _ _ hle ih'
        simpa [selectedExtents, sliceStrides, Slice.isRange, NestedStrides, h1] using this

theorem selectIndex_ofFn {n : Nat} (a b j : Fin n → Int) :
    selectIndex (List.ofFn fun d => Slice.range (a d) (b d)) (List.ofFn j) = List.ofFn fun d => a d + j d := by
  induction n with
  | zero => simp [selectIndex]
  | succ n ih => simp only [List.ofFn_succ, selectIndex, ih]

theorem sliceRank_ofFn {n : Nat} (a b : Fin n → Int) : sliceRank (List.ofFn fun d => Slice.range (a d) (b d)) = n := by
  rw [sliceRank, List.filter_eq_self.2, List.length_ofFn]
  intro s hs
  obtain ⟨d, rfl⟩ := (List.mem_ofFn' _ _).1 hs
  rfl

/-- **C21 (Subview).** `view.Subview(box)(i)` is the element `view(i)`, for every box and index. -/
theorem subview_addr {n : Nat} (v : PatchView n) (hw : v.mds.str.length = n) (b : IndexBox n) (i : Index n) : (v.subview b).addr i = v.addr i := by
  simp only [PatchView.addr, PatchView.subview]
  rw [subspan_elem _ _ _ (by simp [hw]) (by simp [sliceRank_ofFn]), selectIndex_ofFn]
  congr 2
  funext d
  ring

theorem selectedExtents_ofFn {n : Nat} (ext : List Nat) (hl : ext.length = n) (a b : Fin n → Int) :
    selectedExtents ext (List.ofFn fun d => Slice.range (a d) (b d)) = List.ofFn fun d => (b d - a d).toNat := by
  induction n generalizing ext with
  | zero => simp [List.length_eq_zero_iff.1 hl, selectedExtents]
  | succ n ih =>
    cases ext with
    | nil => simp at hl
    | cons e es => simp only [List.ofFn_succ, selectedExtents]; rw [ih es (by simpa using hl)]

/-- **C21 (Subview, partial).** For a non-empty box inside the box of the view, the sub-view has exactly this box. -/
theorem subview_box_partial {n : Nat} (v : PatchView n) (hw : v.WF) (b : IndexBox n) (hin : v.box.containsBox b = true)
    (hne : ∀ d, b.lower d < b.upper d) : (v.subview b).box = b := by
  simp only [IndexBox.containsBox, Bool.and_eq_true, List.all_eq_true, List.mem_finRange, true_implies, decide_eq_true_eq] at hin
  obtain ⟨h1, h2⟩ := hin
  have hsel := selectedExtents_ofFn v.mds.ext hw.1 (fun d => b.lower d - v.origin d)
    (fun d => b.lower d - v.origin d + (b.upper d - b.lower d))
  have hext : (v.subview b).mds.ext = List.ofFn fun d => (b.upper d - b.lower d).toNat := by
    rw [PatchView.subview]
    rw [subspan_ext_partial, hsel]
    · congr 1; funext d; congr 1; ring
    · rw [List.forall₂_iff_get]
      refine ⟨by simp [hw.1], fun k h3 h4 => ?_⟩
      simp only [List.get_eq_getElem, List.getElem_ofFn, Slice.Valid]
      have hk : k < n := by simpa using h4
      have ha := h1 ⟨k, hk⟩
      have hb := h2 ⟨k, hk⟩
      have hc := hne ⟨k, hk⟩
      simp only [PatchView.box, List.getD_eq_getElem _ _ h3] at ha hb
      refine ⟨?_, ?_, ?_⟩ <;> omega
    · rw [hsel]
      intro l hl
      obtain ⟨d, rfl⟩ := (List.mem_ofFn' _ _).1 hl
      have := hne d
      show 0 < (_ : Int).toNat
      omega
  ext d
  · rfl
  · simp only [PatchView.box, hext]
    have := hne d
    rw [List.getD_eq_getElem _ _ (by simp)]
    simp only [List.getElem_ofFn, PatchView.subview, Fin.eta]
    omega

theorem dot_append_zero (str : List Nat) (is : List Int) (n : Nat) (c : Int) (hs : str.length = n + 1) (hi : is.length = n) :
    dot str (is ++ [c]) = dot (str.take n) is + dot str (List.replicate n 0 ++ [c]) := by
  induction n generalizing str is with
  | zero =>
    have := List.length_eq_zero_iff.1 hi
    subst this
    simp
  | succ n ih =>
    cases str with
    | nil => simp at hs
    | cons s str =>
      cases is with
      | nil => simp at hi
      | cons i is =>
        have := ih str is (by simpa using hs) (by simpa using hi)
        simp only [List.cons_append, dot_cons, List.replicate_succ, List.take_succ_cons, this]
        ring

theorem stridesLeft_take (ext : List Nat) (n : Nat) : (stridesLeft ext).take n = stridesLeft (ext.take n) := by
  simp only [stridesLeft, ← List.map_take, List.take_range, List.length_take]
  refine List.map_congr_left fun r hr => ?_
  rw [List.mem_range] at hr
  simp only [strideLeft, List.take_take]
  congr 2
  omega

/-- **C21 (SliceLast).** `SliceLast(view, c)(i)` is the element of the view at `i` and, in the last coordinate, `c` counted from its first
element; this holds for strided views and for views with `layout_left` mapping. -/
theorem sliceLast_addr {n : Nat} (v : PatchView (n + 1)) (hw : v.mds.str.length = n + 1) (hl : v.mds.layout = .left → v.mds.str = stridesLeft v.mds.ext)
    (c : Int) (i : Index n) :
    (v.sliceLast c).addr i = v.addr (Fin.snoc i (v.origin (Fin.last n) + c)) := by
  have key : (List.ofFn fun d : Fin (n + 1) => (Fin.snoc i (v.origin (Fin.last n) + c) : Index (n + 1)) d - v.origin d) =
      (List.ofFn fun d : Fin n => i d - v.origin d.castSucc) ++ [c] := by
    rw [List.ofFn_succ_last]
    simp
  have hdot := dot_append_zero v.mds.str (List.ofFn fun d : Fin n => i d - v.origin d.castSucc) n c hw (by simp)
  simp only [PatchView.addr, MdSpan.addr, key, hdot]
  unfold PatchView.sliceLast
  cases hlay : v.mds.layout with
  | stride => simp only [MdSpan.addr]; ring
  | left =>
    simp only [MdSpan.mkLeft, MdSpan.addr, hl hlay, stridesLeft_take]; ring

/-- A concrete case: the sub-view [2,4)x[1,3) of a 4x5 array with origin (0,0), and a component slice of a 2x3x2 array. -/
example : let v : PatchView 2 := ⟨MdSpan.mkLeft 100 [4, 5], ![0, 0]⟩
    v.WF ∧ v.box.containsBox ⟨![2, 1], ![4, 3]⟩ = true ∧ (v.subview ⟨![2, 1], ![4, 3]⟩).addr ![3, 2] = 111 ∧
    (v.subview ⟨![2, 1], ![4, 3]⟩).mds.ext = [2, 2] := by
  refine ⟨⟨rfl, rfl⟩, by decide, by decide, by decide⟩

end Fub
