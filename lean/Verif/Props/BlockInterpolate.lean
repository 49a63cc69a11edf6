import Verif.Model.MultiBlock
import Mathlib.Algebra.BigOperators.Fin
import Mathlib.Algebra.Order.Floor.Ring
import Mathlib.Data.Rat.Floor
import Mathlib.Tactic.FieldSimp
import Mathlib.Tactic.Ring
import Mathlib.Tactic.Linarith
import Mathlib.Tactic.LinearCombination
import Mathlib.Tactic.NormNum

/-!
C94 (interpolation between the grids of connected blocks).
-/

namespace Fub
open Finset
variable {K : Type} [Field K] [LinearOrder K]

/-! ### Specification -/

/-- The length of the common part of the intervals `[a, b]` and `[c, c + h]`. -/
def overlap (a b c h : K) : K := max 0 (min b (c + h) - max a c)

/-- The mean over `[a, b]` of the function that has the value `src k` on `[k h, (k + 1) h]`. -/
def cellMean (src : List K) (h a b : K) : K := (∑ k : Fin src.length, src[k] * overlap a b (k * h) h) / (b - a)

/-- The cells in the order of their distance from the interface: on side 1 the interface is at the upper end. -/
def fromInterface (side : ℕ) (l : List K) : List K := if side = 1 then l.reverse else l

/-! ### Integrals -/

/-- The integral of the piecewise constant function from zero to `x`. -/
def cumul (src : List K) (h x : K) : K := ∑ k : Fin src.length, src[k] * max 0 (min (x - k * h) h)

variable [IsStrictOrderedRing K]

theorem overlap_eq {a b c h : K} (hab : a ≤ b) (hh : 0 ≤ h) : overlap a b c h = max 0 (min (b - c) h) - max 0 (min (a - c) h) := by
  rw [overlap]
  rcases le_total b (c + h) with h1 | h1 <;> rcases le_total a c with h2 | h2
  · rw [min_eq_left h1, max_eq_right h2, min_eq_left (by linarith : b - c ≤ h), min_eq_left (by linarith : a - c ≤ h), max_eq_left (by linarith : a - c ≤ 0), sub_zero]
  · rw [min_eq_left h1, max_eq_left h2, min_eq_left (by linarith : b - c ≤ h), min_eq_left (by linarith : a - c ≤ h), max_eq_right (by linarith : 0 ≤ b - c),
      max_eq_right (by linarith : 0 ≤ a - c), max_eq_right (by linarith)]; ring
  · rw [min_eq_right h1, max_eq_right h2, min_eq_right (by linarith : h ≤ b - c), min_eq_left (by linarith : a - c ≤ h), max_eq_left (by linarith : a - c ≤ 0), max_eq_right hh,
      sub_zero, max_eq_right (by linarith)]; ring
  · rw [min_eq_right h1, max_eq_left h2, min_eq_right (by linarith : h ≤ b - c), max_eq_right hh]
    rcases le_total (a - c) h with h3 | h3
    · rw [min_eq_left h3, max_eq_right (by linarith : 0 ≤ a - c), max_eq_right (by linarith)]; ring
    · rw [min_eq_right h3, max_eq_right hh, max_eq_left (by linarith)]; ring

theorem mean_cumul (src : List K) {h a b : K} (hab : a ≤ b) (hh : 0 ≤ h) : cellMean src h a b = (cumul src h b - cumul src h a) / (b - a) := by
  rw [cellMean, cumul, cumul, ← Finset.sum_sub_distrib]
  congr 1
  refine Finset.sum_congr rfl fun k _ => ?_
  rw [overlap_eq hab hh]; ring

theorem cumul_increment (src : List K) {h r r' : K} (hr : 0 ≤ r) (hr' : 0 ≤ r') (hrh : r ≤ h) (hrh' : r' ≤ h) {i : ℕ} (hi : i < src.length) :
    cumul src h (i * h + r) - cumul src h (i * h + r') = (r - r') * src[i] := by
  have hh : 0 ≤ h := hr.trans hrh
  rw [cumul, cumul, ← Finset.sum_sub_distrib, Finset.sum_eq_single (⟨i, hi⟩ : Fin src.length)]
  · simp only [Fin.getElem_fin, add_sub_cancel_left, min_eq_left hrh, min_eq_left hrh', max_eq_right hr, max_eq_right hr']; ring
  · intro k _ hk
    have hk' : (k : ℕ) ≠ i := fun e => hk (Fin.ext e)
    rcases lt_or_gt_of_ne hk' with hlt | hgt
    · have : ((k : ℕ) : K) + 1 ≤ i := by exact_mod_cast hlt
      have e : ∀ t, 0 ≤ t → min ((i:K) * h + t - (k : ℕ) * h) h = h := fun t ht => min_eq_right (by nlinarith)
      rw [e r hr, e r' hr']; ring
    · have : (i : K) + 1 ≤ ((k : ℕ) : K) := by exact_mod_cast hgt
      have e : ∀ t, t ≤ h → max 0 (min ((i:K) * h + t - (k : ℕ) * h) h) = 0 := fun t ht => max_eq_left ((min_le_left _ _).trans (by nlinarith))
      rw [e r hrh, e r' hrh']; ring
  · intro hn; exact absurd (Finset.mem_univ _) hn

/-! ### Coarsening -/

theorem interp_while (src : List K) {H h x0 : K} (hh : 0 < h) (hH : 0 < H) (hlen : x0 + H ≤ src.length * h) (idx : ℕ) (sum acc : K) (hpos : (idx : K) * h = x0 + sum) (hsum : sum ≤ H)
    (hacc : acc * H = cumul src h (idx * h) - cumul src h x0) :
    ∃ idx' sum' acc', interpWhile src H h idx sum acc = some (idx', sum', acc') ∧ (idx' : K) * h = x0 + sum' ∧ sum' ≤ H ∧ H < sum' + h ∧
      acc' * H = cumul src h (idx' * h) - cumul src h x0 := by
  induction hn : src.length - idx using Nat.strong_induction_on generalizing idx sum acc with
  | _ n ih =>
    rw [interpWhile]
    by_cases hc : sum + h ≤ H
    · have hlt : idx < src.length := by
        have : ((idx : K) + 1) * h ≤ src.length * h := by nlinarith
        have := le_of_mul_le_mul_right this hh
        have : ((idx + 1 : ℕ) : K) ≤ src.length := by push_cast; exact this
        exact_mod_cast this
      rw [if_pos hc, dif_pos hlt]
      refine ih (src.length - (idx + 1)) (by omega) (idx + 1) (sum + h) _ (by push_cast; linarith) hc ?_ rfl
      have inc := cumul_increment src (r := h) (r' := 0) hh.le le_rfl le_rfl hh.le hlt
      rw [add_zero] at inc
      have e : ((idx + 1 : ℕ) : K) * h = idx * h + h := by push_cast; ring
      rw [e]
      have : (acc + h / H * src[idx]) * H = acc * H + h * src[idx] := by field_simp
      rw [this, hacc]
      linear_combination -inc
    · rw [if_neg hc]
      exact ⟨idx, sum, acc, rfl, hpos, hsum, not_le.1 hc, hacc⟩

theorem idx_lt_of_mul {h : K} (hh : 0 < h) {i n : ℕ} (hlt : (i : K) * h < n * h) : i < n := by
  have := lt_of_mul_lt_mul_right hlt hh.le
  exact_mod_cast this

/-- The first part of a destination cell: the rest of the last source cell and the full cells. -/
theorem interp_cell_start (src : List K) {H h x0 last : K} (hh : 0 < h) (hH : h < H) (h0 : 0 ≤ last) (hl : last < h) (hlen : x0 + H ≤ src.length * h) (idx : ℕ) (hpos : (idx : K) * h + last = x0) :
    ∃ idx' sum acc, interpCell src H h idx last = (if H - sum < h then (src[idx']?).bind fun v => some (acc + (H - sum) / H * v, idx', H - sum) else none) ∧
      (idx' : K) * h = x0 + sum ∧ sum ≤ H ∧ H < sum + h ∧ acc * H = cumul src h (idx' * h) - cumul src h x0 := by
  have hH0 : 0 < H := hh.trans hH
  by_cases hc : 0 < last
  · have hlt : idx < src.length := idx_lt_of_mul hh (by linarith)
    have inc := cumul_increment src (r := h) (r' := last) hh.le h0 le_rfl hl.le hlt
    have e : ((idx + 1 : ℕ) : K) * h = idx * h + h := by push_cast; ring
    obtain ⟨idx', sum', acc', w, p, s1, s2, a⟩ := interp_while src hh hH0 hlen (idx + 1) (h - last) ((h - last) / H * src[idx]) (by rw [e]; linarith) (by linarith)
      (by rw [e, ← hpos, inc]; field_simp)
    refine ⟨idx', sum', acc', ?_, p, s1, s2, a⟩
    simp only [interpCell, hc, if_true, List.getElem?_eq_getElem hlt, Option.map_some, Option.bind_eq_bind, Option.bind_some, w]
  · have hl0 : last = 0 := le_antisymm (not_lt.1 hc) h0
    obtain ⟨idx', sum', acc', w, p, s1, s2, a⟩ := interp_while src hh hH0 hlen idx 0 0 (by rw [← hpos, hl0]; ring) hH0.le (by rw [← hpos, hl0, add_zero]; ring)
    refine ⟨idx', sum', acc', ?_, p, s1, s2, a⟩
    simp only [interpCell, hc, if_false, Option.bind_eq_bind, Option.bind_some, w]

theorem interp_cell (src : List K) {H h x0 last : K} (hh : 0 < h) (hH : h < H) (h0 : 0 ≤ last) (hl : last < h) (hlen : x0 + H < src.length * h) (idx : ℕ) (hpos : (idx : K) * h + last = x0) :
    ∃ idx' last', interpCell src H h idx last = some (cellMean src h x0 (x0 + H), idx', last') ∧ 0 ≤ last' ∧ last' < h ∧ (idx' : K) * h + last' = x0 + H := by
  have hH0 : 0 < H := hh.trans hH
  obtain ⟨idx', sum, acc, e, p, s1, s2, a⟩ := interp_cell_start src hh hH h0 hl hlen.le idx hpos
  have hlt : idx' < src.length := idx_lt_of_mul hh (by linarith)
  refine ⟨idx', H - sum, ?_, by linarith, by linarith, by linarith⟩
  rw [e, if_pos (by linarith), List.getElem?_eq_getElem hlt, Option.bind_some]
  have inc := cumul_increment src (r := H - sum) (r' := 0) (by linarith) le_rfl (by linarith) hh.le hlt
  rw [add_zero, p] at inc
  rw [mean_cumul src (by linarith) hh.le, add_sub_cancel_left]
  have e2 : x0 + sum + (H - sum) = x0 + H := by ring
  rw [e2] at inc
  rw [p] at a
  have : acc + (H - sum) / H * src[idx'] = (cumul src h (x0 + H) - cumul src h x0) / H := by
    rw [eq_div_iff hH0.ne']
    have e3 : (acc + (H - sum) / H * src[idx']) * H = acc * H + (H - sum) * src[idx'] := by field_simp
    rw [e3, a]
    linear_combination -inc
  rw [this]

theorem interp_greater_from (src : List K) {H h : K} (hh : 0 < h) (hH : h < H) (m : ℕ) (j : ℕ) (idx : ℕ) (last : K) (h0 : 0 ≤ last) (hl : last < h) (hpos : (idx : K) * h + last = j * H)
    (hlen : ((j + m : ℕ) : K) * H < src.length * h) :
    interpGreaterFrom src H h m idx last = some ((List.range m).map fun k => cellMean src h ((j + k : ℕ) * H) ((j + k + 1 : ℕ) * H)) := by
  have hH0 : 0 < H := hh.trans hH
  induction m generalizing j idx last with
  | zero => rfl
  | succ m ih =>
    have h1 : (j : K) * H + H < src.length * h := by
      refine lt_of_le_of_lt ?_ hlen
      have : ((j + 1 : ℕ) : K) ≤ ((j + (m + 1) : ℕ) : K) := by exact_mod_cast (by omega : j + 1 ≤ j + (m + 1))
      have := mul_le_mul_of_nonneg_right this hH0.le
      push_cast at this ⊢; linarith
    obtain ⟨idx', last', e, l0, l1, p⟩ := interp_cell src hh hH h0 hl h1 idx hpos
    have ih' := ih (j + 1) idx' last' l0 l1 (by rw [p]; push_cast; ring) (by rw [show j + 1 + m = j + (m + 1) by omega]; exact hlen)
    rw [interpGreaterFrom, e]
    simp only [Option.bind_eq_bind, Option.bind_some]
    rw [ih', List.range_succ_eq_map]
    simp only [Option.bind_some, List.map_cons, List.map_map, Option.some.injEq, List.cons.injEq]
    refine ⟨by push_cast; ring_nf, ?_⟩
    refine List.map_congr_left fun k _ => ?_
    simp only [Function.comp, Nat.succ_eq_add_one]
    rw [show j + 1 + k = j + (k + 1) by omega]

/-- Coarsening with more source than destination length gives the means. -/
theorem interp_greater (src : List K) {H h : K} (hh : 0 < h) (hH : h < H) (m : ℕ) (hlen : (m : K) * H < src.length * h) :
    interpGreater m H src h = some ((List.range m).map fun k => cellMean src h ((k : ℕ) * H) ((k + 1 : ℕ) * H)) := by
  have := interp_greater_from src hh hH m 0 0 0 le_rfl hh (by simp) (by simpa using hlen)
  simpa [interpGreater] using this

theorem interp_greater_exact_from (src : List K) {H h : K} (hh : 0 < h) (hH : h < H) (m : ℕ) (j : ℕ) (idx : ℕ) (last : K) (h0 : 0 ≤ last) (hl : last < h) (hpos : (idx : K) * h + last = j * H)
    (hlen : ((j + (m + 1) : ℕ) : K) * H = src.length * h) :
    interpGreaterFrom src H h (m + 1) idx last = none := by
  have hH0 : 0 < H := hh.trans hH
  induction m generalizing j idx last with
  | zero =>
    have hx : (j : K) * H + H = src.length * h := by rw [← hlen]; push_cast; ring
    obtain ⟨idx', sum, acc, e, p, s1, s2, a⟩ := interp_cell_start src hh hH h0 hl hx.le idx hpos
    have hge : src.length ≤ idx' := by
      by_contra hlt
      have : ((idx' + 1 : ℕ) : K) ≤ src.length := by exact_mod_cast (by omega : idx' + 1 ≤ src.length)
      have := mul_le_mul_of_nonneg_right this hh.le
      push_cast at this
      linarith
    have hnone : interpCell src H h idx last = none := by
      rw [e, List.getElem?_eq_none hge]; simp
    simp [interpGreaterFrom, hnone]
  | succ m ih =>
    have h1 : (j : K) * H + H < src.length * h := by
      rw [← hlen]
      have : ((j + 1 : ℕ) : K) < ((j + (m + 1 + 1) : ℕ) : K) := by exact_mod_cast (by omega : j + 1 < j + (m + 1 + 1))
      have := mul_lt_mul_of_pos_right this hH0
      push_cast at this ⊢; linarith
    obtain ⟨idx', last', e, l0, l1, p⟩ := interp_cell src hh hH h0 hl h1 idx hpos
    have ih' := ih (j + 1) idx' last' l0 l1 (by rw [p]; push_cast; ring) (by rw [show j + 1 + (m + 1) = j + (m + 1 + 1) by omega]; exact hlen)
    rw [interpGreaterFrom, e]
    simp only [Option.bind_eq_bind, Option.bind_some]
    rw [ih']; rfl

/-! ### Refining -/

theorem mapM_some {A B : Type} (f : A → Option B) (g : A → B) (l : List A) (h : ∀ x ∈ l, f x = some (g x)) : l.mapM f = some (l.map g) := by
  induction l with
  | nil => rfl
  | cons x l ih => rw [List.mapM_cons, h x (by simp), ih fun y hy => h y (by simp [hy])]; rfl

variable [FloorSemiring K]

theorem interp_less_cell (src : List K) {H h : K} (hH : 0 < H) (hh : H < h) (i : ℕ) (hlen : ((i + 1 : ℕ) : K) * H ≤ src.length * h) :
    interpLessCell src H h i = some (cellMean src h (i * H) ((i + 1 : ℕ) * H)) := by
  have hh0 : 0 < h := hH.trans hh
  have hx0 : 0 ≤ H * (i : K) := by positivity
  have hx1 : 0 ≤ H * ((i + 1 : ℕ) : K) := by positivity
  have eU : H * ((i + 1 : ℕ) : K) = H * i + H := by push_cast; ring
  rw [mean_cumul src (by push_cast; nlinarith) hh0.le]
  have eden : ((i + 1 : ℕ) : K) * H - i * H = H := by push_cast; ring
  rw [eden, mul_comm ((i + 1 : ℕ) : K) H, mul_comm (i : K) H]
  simp only [interpLessCell]
  set j0 := ⌊H * (i : K) / h⌋₊ with hj0
  set j1 := ⌊H * ((i + 1 : ℕ) : K) / h⌋₊ with hj1
  have a0 : (j0 : K) * h ≤ H * i := by
    have := Nat.floor_le (div_nonneg hx0 hh0.le); rw [← hj0, le_div_iff₀ hh0] at this; exact this
  have b0 : H * i < ((j0 : K) + 1) * h := by
    have := Nat.lt_floor_add_one (H * (i : K) / h); rw [← hj0, div_lt_iff₀ hh0] at this; exact this
  have a1 : (j1 : K) * h ≤ H * ((i + 1 : ℕ) : K) := by
    have := Nat.floor_le (div_nonneg hx1 hh0.le); rw [← hj1, le_div_iff₀ hh0] at this; exact this
  have b1 : H * ((i + 1 : ℕ) : K) < ((j1 : K) + 1) * h := by
    have := Nat.lt_floor_add_one (H * ((i + 1 : ℕ) : K) / h); rw [← hj1, div_lt_iff₀ hh0] at this; exact this
  rw [mul_comm ((i + 1 : ℕ) : K) H] at hlen
  rw [eU] at a1 b1 hlen ⊢
  clear_value j0 j1
  have hlt0 : j0 < src.length := idx_lt_of_mul hh0 (by linarith)
  generalize hX : H * (i : K) = X at *
  by_cases hj : j0 = j1
  · subst hj
    rw [if_pos rfl, List.getElem?_eq_getElem hlt0]
    have inc := cumul_increment src (h := h) (r := X + H - j0 * h) (r' := X - j0 * h) (by linarith) (by linarith) (by linarith) (by linarith) hlt0
    rw [add_sub_cancel, add_sub_cancel] at inc
    rw [inc]; congr 1; field_simp; ring
  · rw [if_neg hj]
    have hle : j0 ≤ j1 := by
      have : (j0 : K) * h < ((j1 + 1 : ℕ) : K) * h := by push_cast; linarith
      have := idx_lt_of_mul hh0 this; omega
    have hj1' : j1 = j0 + 1 := by
      have : (j1 : K) * h < ((j0 + 2 : ℕ) : K) * h := by push_cast; linarith
      have := idx_lt_of_mul hh0 this; omega
    subst hj1'
    have ej : ((j0 + 1 : ℕ) : K) * h = j0 * h + h := by push_cast; ring
    have inc0 := cumul_increment src (r := h) (r' := X - j0 * h) hh0.le (by linarith) le_rfl (by linarith) hlt0
    rw [add_sub_cancel] at inc0
    rw [ej] at a1
    by_cases hw : 0 < X + H - h * ((j0 + 1 : ℕ) : K)
    · have hlt1 : j0 + 1 < src.length := idx_lt_of_mul hh0 (by rw [mul_comm h] at hw; linarith)
      rw [if_pos ⟨hw, hlt1⟩]
      rw [List.getElem?_eq_getElem hlt0, List.getElem?_eq_getElem hlt1]
      simp only [Option.bind_eq_bind, Option.bind_some, Option.some.injEq]
      have inc1 := cumul_increment src (r := X + H - ((j0 + 1 : ℕ) : K) * h) (r' := 0) (by rw [mul_comm h] at hw; exact hw.le) le_rfl (by rw [ej]; push_cast at b1; linarith) hh0.le hlt1
      rw [add_sub_cancel, add_zero, ej] at inc1
      rw [mul_comm h, ej]
      rw [eq_div_iff hH.ne']
      have : ((H - (X + H - (↑j0 * h + h))) / H * src[j0] + (X + H - (↑j0 * h + h)) / H * src[j0 + 1]) * H
          = (H - (X + H - (↑j0 * h + h))) * src[j0] + (X + H - (↑j0 * h + h)) * src[j0 + 1] := by field_simp
      rw [this]
      linear_combination -inc0 - inc1
    · rw [if_neg fun hc => hw hc.1, List.getElem?_eq_getElem hlt0]
      have : X + H = j0 * h + h := by rw [mul_comm h, ej] at hw; linarith
      rw [this, inc0]
      congr 1
      rw [eq_div_iff hH.ne']
      linear_combination src[j0] * this

theorem interp_less (src : List K) {H h : K} (hH : 0 < H) (hh : H < h) (m : ℕ) (hlen : (m : K) * H ≤ src.length * h) :
    interpLess m H src h = some ((List.range m).map fun k => cellMean src h ((k : ℕ) * H) ((k + 1 : ℕ) * H)) := by
  rw [interpLess]
  refine mapM_some _ _ _ fun i hi => ?_
  refine interp_less_cell src hH hh i (le_trans ?_ hlen)
  have : ((i + 1 : ℕ) : K) ≤ m := by exact_mod_cast List.mem_range.1 hi
  exact mul_le_mul_of_nonneg_right this hH.le

/-! ### The properties -/

omit [FloorSemiring K] in
theorem mean_self (src : List K) {h : K} (hh : 0 < h) : ((List.range src.length).map fun k => cellMean src h ((k : ℕ) * h) ((k + 1 : ℕ) * h)) = src := by
  refine List.ext_getElem (by simp) fun i h1 h2 => ?_
  simp only [List.getElem_map, List.getElem_range]
  have e : ((i + 1 : ℕ) : K) * h = i * h + h := by push_cast; ring
  have inc := cumul_increment src (r := h) (r' := 0) hh.le le_rfl le_rfl hh.le h2
  rw [add_zero] at inc
  rw [e, mean_cumul src (by linarith) hh.le, inc]
  field_simp; ring

/-- **C94.** The mirror is wide enough for the ghost cells and no cell wider than necessary. -/
theorem mirror_width {gcw : ℕ} {H h : K} (hH : 0 < H) (hh : 0 < h) : (gcw : K) * H ≤ (mirrorWidth gcw H h : ℕ) * h ∧ ((mirrorWidth gcw H h : ℕ) : K) * h < gcw * H + h := by
  have h0 : 0 ≤ (gcw : K) * H / h := by positivity
  constructor
  · have := Nat.le_ceil ((gcw : K) * H / h)
    rwa [div_le_iff₀ hh] at this
  · have := Nat.ceil_lt_add_one h0
    have := mul_lt_mul_of_pos_right this hh
    rwa [add_mul, div_mul_cancel₀ _ hh.ne', one_mul] at this

/-- **C94.** The data of the other block are averaged exactly: the `k`-th cell counted from the interface gets the mean over the interval `[k H, (k + 1) H]`, measured from the interface, of the piecewise constant source data. For
coarsening this is proved if the ghost layer does not end at a face of the source grid. -/
theorem interpolate_exact_partial (m : ℕ) (src : List K) {H h : K} (hH : 0 < H) (hh : 0 < h) (side : ℕ) (hlen : src.length = mirrorWidth m H h) (hfit : h < H → (m : K) * H ≠ (mirrorWidth m H h : ℕ) * h) :
    (interpolateStates m H src h side).map (fromInterface side) =
      some ((List.range m).map fun k => cellMean (fromInterface side src) h ((k : ℕ) * H) ((k + 1 : ℕ) * H)) := by
  have hw := (mirror_width (gcw := m) hH hh).1
  have key : ∀ s : List K, s.length = src.length →
      (h < H → interpGreater m H s h = some ((List.range m).map fun k => cellMean s h ((k : ℕ) * H) ((k + 1 : ℕ) * H))) ∧
      (H < h → interpLess m H s h = some ((List.range m).map fun k => cellMean s h ((k : ℕ) * H) ((k + 1 : ℕ) * H))) := by
    intro s hs
    refine ⟨fun hlt => interp_greater s hh hlt m ?_, fun hlt => interp_less s hH hlt m ?_⟩
    · rw [hs, hlen]; exact lt_of_le_of_ne hw (hfit hlt)
    · rw [hs, hlen]; exact hw
  by_cases h1 : h < H
  · by_cases hs : side = 1
    · simp [interpolateStates, fromInterface, h1, hs, (key src.reverse (by simp)).1 h1]
    · simp [interpolateStates, fromInterface, h1, hs, (key src rfl).1 h1]
  · by_cases h2 : H < h
    · by_cases hs : side = 1
      · simp [interpolateStates, fromInterface, h1, h2, hs, (key src.reverse (by simp)).2 h2]
      · simp [interpolateStates, fromInterface, h1, h2, hs, (key src rfl).2 h2]
    · have he : H = h := le_antisymm (not_lt.1 h1) (not_lt.1 h2)
      subst he
      have hm : src.length = m := by
        rw [hlen, mirrorWidth, mul_div_cancel_right₀ _ hH.ne', Nat.ceil_natCast]
      have : (fromInterface side src).length = m := by rw [fromInterface]; split <;> simp [hm]
      rw [← this, mean_self _ hH]
      simp [interpolateStates]

/-- **C94, disagreement.** If the ghost layer ends at a face of the finer source grid, in particular whenever the coarse cells are a multiple of the fine ones, the last destination cell reads the element behind the end of the source. -/
theorem interpolate_reads_past (m : ℕ) (src : List K) {H h : K} (hm : 0 < m) (hh : 0 < h) (hH : h < H) (side : ℕ) (hlen : src.length = mirrorWidth m H h) (hfit : (m : K) * H = (mirrorWidth m H h : ℕ) * h) :
    interpolateStates m H src h side = none := by
  obtain ⟨m, rfl⟩ : ∃ k, m = k + 1 := ⟨m - 1, by omega⟩
  have key : ∀ s : List K, s.length = src.length → interpGreater (m + 1) H s h = none := by
    intro s hs
    exact interp_greater_exact_from s hh hH m 0 0 0 le_rfl hh (by simp) (by rw [hs, hlen, ← hfit]; simp)
  by_cases hs : side = 1
  · simp [interpolateStates, hH, hs, key src.reverse (by simp)]
  · simp [interpolateStates, hH, hs, key src rfl]

/-- **C94, disagreement.** Grids with an integer ratio are such a case. -/
theorem interpolate_ratio (m r : ℕ) {h : K} (hh : 0 < h) : (m : K) * (r * h) = (mirrorWidth m (r * h) h : ℕ) * h := by
  have : (m : K) * (r * h) / h = ((m * r : ℕ) : K) := by push_cast; field_simp
  rw [mirrorWidth, this, Nat.ceil_natCast]; push_cast; ring

/-- **C94.** Interpolation keeps bounds of the data. -/
theorem mean_range (src : List K) {h a b : K} (hh : 0 < h) (ha : 0 ≤ a) (hab : a < b) (hb : b ≤ src.length * h) {lo up : K} (hr : ∀ v ∈ src, lo ≤ v ∧ v ≤ up) :
    lo ≤ cellMean src h a b ∧ cellMean src h a b ≤ up := by
  have hd : 0 < b - a := by linarith
  have hone : ∑ k : Fin src.length, overlap a b ((k : ℕ) * h) h = b - a := by
    have hsum : ∀ (x : K) (n : ℕ), 0 ≤ x → x ≤ n * h → ∑ k : Fin n, max 0 (min (x - ((k : ℕ) : K) * h) h) = x := by
      intro x n hx
      induction n with
      | zero => intro hx'; simp at hx'; simp [le_antisymm hx' hx]
      | succ n ih =>
        intro hx'
        rw [Fin.sum_univ_castSucc]
        simp only [Fin.val_castSucc, Fin.val_last]
        rcases le_total x (n * h) with hle | hge
        · rw [ih hle, max_eq_left ((min_le_left _ _).trans (by linarith)), add_zero]
        · have : ∀ k : Fin n, max 0 (min (x - ((k : ℕ) : K) * h) h) = h := fun k => by
            have hk : ((k : ℕ) : K) + 1 ≤ n := by exact_mod_cast k.2
            rw [min_eq_right (by nlinarith), max_eq_right hh.le]
          simp only [this, Finset.sum_const, Finset.card_univ, Fintype.card_fin, nsmul_eq_mul]
          rw [min_eq_left (by push_cast at hx'; linarith), max_eq_right (by linarith)]; ring
    rw [Finset.sum_congr rfl fun k _ => overlap_eq hab.le hh.le, Finset.sum_sub_distrib, hsum b _ (by linarith) hb, hsum a _ ha (by linarith)]
  have hmem : ∀ k : Fin src.length, lo ≤ src[k] ∧ src[k] ≤ up := fun k => hr _ (List.getElem_mem _)
  have hpos : ∀ k : Fin src.length, 0 ≤ overlap a b ((k : ℕ) * h) h := fun k => le_max_left _ _
  rw [cellMean]
  constructor
  · rw [le_div_iff₀ hd, ← hone, Finset.mul_sum]
    exact Finset.sum_le_sum fun k _ => mul_le_mul_of_nonneg_right (hmem k).1 (hpos k)
  · rw [div_le_iff₀ hd, ← hone, Finset.mul_sum]
    exact Finset.sum_le_sum fun k _ => mul_le_mul_of_nonneg_right (hmem k).2 (hpos k)

/-! ### Concrete cases -/

/-- Three coarse cells of size 3 from five fine cells of size 2, from both sides; and the way back. -/
example : mirrorWidth 3 (3 : ℚ) 2 = 5 ∧ ¬ ((3 : ℕ) : ℚ) * 3 = (mirrorWidth 3 (3 : ℚ) 2 : ℕ) * 2 ∧ interpolateStates 3 (3 : ℚ) [6, 12, 18, 24, 30] 2 0 = some [8, 16, 26] ∧
    interpolateStates 3 (3 : ℚ) [6, 12, 18, 24, 30] 2 1 = some [10, 20, 28] ∧ mirrorWidth 3 (2 : ℚ) 3 = 2 ∧ interpolateStates 3 (2 : ℚ) [3, 6] 3 0 = some [3, 9 / 2, 6] := by
  have e : mirrorWidth 3 (3 : ℚ) 2 = 5 := by norm_num [mirrorWidth, Nat.ceil_eq_iff]
  refine ⟨e, by rw [e]; norm_num, by decide +kernel, by decide +kernel, by norm_num [mirrorWidth, Nat.ceil_eq_iff], by decide +kernel⟩

/-- A ratio of two: the read behind the end. -/
example : interpolateStates 2 (2 : ℚ) [1, 2, 3, 4] 1 0 = none := by decide +kernel

end Fub
