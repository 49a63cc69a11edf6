import Verif.Model.MdLimiter
import Mathlib.Tactic.Ring
import Mathlib.Tactic.Linarith
import Mathlib.Tactic.FieldSimp
import Mathlib.Tactic.LinearCombination
import Mathlib.Tactic.NormNum
import Mathlib.Tactic.IntervalCases
import Mathlib.Data.Finset.Card
import Mathlib.Data.List.GetD
import Mathlib.Data.Rat.Defs
import Mathlib.Algebra.Order.Ring.Rat
import Mathlib.Data.Rat.Cast.Order
import Mathlib.Algebra.Field.Rat

/-!
C105: the multi-dimensional limiter of the cut-cell method. C106: the gradients of cut cells.
-/

namespace Fub

variable {K : Type} [Field K] [LinearOrder K] [IsStrictOrderedRing K]

/-! ### The linear optimization problem -/

/-- Specification: the point `x` satisfies all `m` constraints `A i · x ≥ b i`. -/
def LPFeasible (A : ℕ → K × K) (b : ℕ → K) (m : ℕ) (x : K × K) : Prop := ∀ i, i < m → b i ≤ (A i).1 * x.1 + (A i).2 * x.2

/-- Specification: `x` is a feasible point of least cost. -/
def LPMinimizer (A : ℕ → K × K) (b : ℕ → K) (m : ℕ) (c : K × K) (x : K × K) : Prop :=
  LPFeasible A b m x ∧ ∀ y, LPFeasible A b m y → c.1 * x.1 + c.2 * x.2 ≤ c.1 * y.1 + c.2 * y.2

/-- Specification: the constraints admit no direction in which one could go on for ever. -/
def LPBounded (A : ℕ → K × K) (m : ℕ) : Prop := ∀ p : K × K, p ≠ (0, 0) → ∃ i, i < m ∧ (A i).1 * p.1 + (A i).2 * p.2 < 0

omit [LinearOrder K] [IsStrictOrderedRing K] in
theorem lam_decomp (c t o : K × K) (h : det2 t o ≠ 0) :
    c.1 = lpLambda c t o * t.1 + lpLambda c o t * o.1 ∧ c.2 = lpLambda c t o * t.2 + lpLambda c o t * o.2 := by
  have h' : det2 o t = -det2 t o := by unfold det2; ring
  unfold lpLambda
  rw [h']
  have e1 : det2 c t / -det2 t o = -(det2 c t / det2 t o) := by rw [div_neg]
  rw [e1]
  constructor
  · rw [div_mul_eq_mul_div, neg_mul, div_mul_eq_mul_div, ← sub_eq_add_neg, ← sub_div, eq_div_iff h]; unfold det2; ring
  · rw [div_mul_eq_mul_div, neg_mul, div_mul_eq_mul_div, ← sub_eq_add_neg, ← sub_div, eq_div_iff h]; unfold det2; ring

omit [LinearOrder K] [IsStrictOrderedRing K] in
theorem lpDir_this (t o : K × K) (h : det2 t o ≠ 0) : dot2 t (lpDir t o) = 1 := by
  unfold dot2 lpDir
  simp only
  rw [mul_div_assoc', mul_div_assoc', ← add_div, div_eq_iff h]; unfold det2; ring

omit [LinearOrder K] [IsStrictOrderedRing K] in
theorem lpDir_other (t o : K × K) : dot2 o (lpDir t o) = 0 := by
  unfold dot2 lpDir
  simp only
  ring

omit [LinearOrder K] [IsStrictOrderedRing K] in
theorem lpDir_any (a t o : K × K) : dot2 a (lpDir t o) = det2 a o / det2 t o := by
  unfold dot2 lpDir det2
  simp only
  ring

omit [LinearOrder K] [IsStrictOrderedRing K] in
theorem det2_swap (a b : K × K) : det2 a b = -det2 b a := by unfold det2; ring

/-- What the search returns. -/
structure SearchOk (A : ℕ → K × K) (b : ℕ → K) (x p : K × K) (keep : ℕ) (l : List ℕ) (r : Option (ℕ × K)) : Prop where
  found : ∀ q, r = some q → q.1 ∈ l ∧ dot2 (A q.1) p < 0 ∧ q.2 = (b q.1 - dot2 (A q.1) x) / dot2 (A q.1) p ∧ det2 (A keep) (A q.1) ≠ 0
  least : ∀ q, r = some q → ∀ j ∈ l, dot2 (A j) p < 0 → det2 (A keep) (A j) ≠ 0 → q.2 ≤ (b j - dot2 (A j) x) / dot2 (A j) p
  exhaust : r = none → ∀ j ∈ l, dot2 (A j) p < 0 → det2 (A keep) (A j) ≠ 0 → False

theorem search_fold (A : ℕ → K × K) (b : ℕ → K) (x p : K × K) (keep : ℕ) (l : List ℕ) :
    SearchOk A b x p keep l (l.foldl (lpSearchStep A b x p keep) none) := by
  induction l using List.reverseRecOn with
  | nil => exact ⟨fun q h => by simp at h, fun q h => by simp at h, fun _ j hj => by simp at hj⟩
  | append_singleton l i ih =>
    rw [List.foldl_append, List.foldl_cons, List.foldl_nil]
    generalize l.foldl (lpSearchStep A b x p keep) none = r at ih ⊢
    unfold lpSearchStep
    simp only
    by_cases hap : dot2 (A i) p < 0
    · rw [if_pos hap]
      by_cases hc : (∀ q, r = some q → (b i - dot2 (A i) x) / dot2 (A i) p < q.2) ∧ det2 (A keep) (A i) ≠ 0
      · rw [if_pos hc]
        refine ⟨?_, ?_, ?_⟩
        · intro q hq
          cases hq
          exact ⟨by simp, hap, rfl, hc.2⟩
        · intro q hq j hj hj1 hj2
          cases hq
          rcases List.mem_append.1 hj with hj | hj
          · cases hr : r with
            | none => exact (ih.exhaust hr j hj hj1 hj2).elim
            | some q =>
              exact le_trans (hc.1 q hr).le (ih.least q hr j hj hj1 hj2)
          · rw [List.mem_singleton.1 hj]
        · intro h; cases h
      · rw [if_neg hc]
        refine ⟨?_, ?_, ?_⟩
        · intro q hq
          obtain ⟨h1, h2, h3, h4⟩ := ih.found q hq
          exact ⟨List.mem_append_left _ h1, h2, h3, h4⟩
        · intro q hq j hj hj1 hj2
          rcases List.mem_append.1 hj with hj | hj
          · exact ih.least q hq j hj hj1 hj2
          · rw [List.mem_singleton.1 hj] at hj1 hj2 ⊢
            by_contra hlt
            push Not at hlt
            apply hc
            refine ⟨fun q' hq' => ?_, hj2⟩
            rw [hq] at hq'
            cases hq'
            exact hlt
        · intro hr j hj hj1 hj2
          rcases List.mem_append.1 hj with hj | hj
          · exact ih.exhaust hr j hj hj1 hj2
          · rw [List.mem_singleton.1 hj] at hj2
            apply hc
            refine ⟨fun q' hq' => ?_, hj2⟩
            rw [hr] at hq'
            cases hq'
    · rw [if_neg hap]
      refine ⟨?_, ?_, ?_⟩
      · intro q hq
        obtain ⟨h1, h2, h3, h4⟩ := ih.found q hq
        exact ⟨List.mem_append_left _ h1, h2, h3, h4⟩
      · intro q hq j hj hj1 hj2
        rcases List.mem_append.1 hj with hj | hj
        · exact ih.least q hq j hj hj1 hj2
        · rw [List.mem_singleton.1 hj] at hj1
          exact absurd hj1 hap
      · intro hr j hj hj1 hj2
        rcases List.mem_append.1 hj with hj | hj
        · exact ih.exhaust hr j hj hj1 hj2
        · rw [List.mem_singleton.1 hj] at hj1
          exact absurd hj1 hap

/-- The invariant of the active-set method: independent active constraints at a feasible point. -/
structure LPInv (A : ℕ → K × K) (b : ℕ → K) (m : ℕ) (w0 w1 : ℕ) (x : K × K) : Prop where
  lt0 : w0 < m
  lt1 : w1 < m
  det : det2 (A w0) (A w1) ≠ 0
  feas : LPFeasible A b m x
  tight0 : dot2 (A w0) x = b w0
  tight1 : dot2 (A w1) x = b w1

omit [IsStrictOrderedRing K] in
theorem LPInv.symm {A : ℕ → K × K} {b : ℕ → K} {m w0 w1 : ℕ} {x : K × K} (h : LPInv A b m w0 w1 x) : LPInv A b m w1 w0 x :=
  ⟨h.lt1, h.lt0, by rw [det2_swap]; exact neg_ne_zero.2 h.det, h.feas, h.tight1, h.tight0⟩

/-- One exchange: the search finds a constraint different from the one that is dropped, the invariant is kept, and the multiplier of the new constraint is positive. -/
theorem lp_pivot (A : ℕ → K × K) (b : ℕ → K) (m : ℕ) (c : K × K) (hb : LPBounded A m) (t o : ℕ) (x : K × K) (h : LPInv A b m t o x)
    (hl : lpLambda c (A t) (A o) < 0) :
    ∃ i al, lpSearch A b m x (lpDir (A t) (A o)) o = some (i, al) ∧ i ≠ t ∧
      LPInv A b m i o (x.1 + al * (lpDir (A t) (A o)).1, x.2 + al * (lpDir (A t) (A o)).2) ∧ 0 < lpLambda c (A i) (A o) := by
  have hs := search_fold A b x (lpDir (A t) (A o)) o (List.range m)
  change SearchOk A b x _ o _ (lpSearch A b m x (lpDir (A t) (A o)) o) at hs
  have hp1 := lpDir_this (A t) (A o) h.det
  have hp0 := lpDir_other (A t) (A o)
  have hpa := fun a => lpDir_any a (A t) (A o)
  generalize hp : lpDir (A t) (A o) = p at hs hp1 hp0 hpa ⊢
  have hdet : ∀ j, dot2 (A j) p < 0 → det2 (A o) (A j) ≠ 0 := by
    intro j hj hz
    rw [hpa, det2_swap, hz] at hj
    simp at hj
  cases hr : lpSearch A b m x p o with
  | none =>
    exfalso
    have hpne : p ≠ (0, 0) := by
      intro hz
      rw [hz] at hp1
      simp [dot2] at hp1
    obtain ⟨j, hj, hjp⟩ := hb p hpne
    exact hs.exhaust hr j (List.mem_range.2 hj) hjp (hdet j hjp)
  | some q =>
    obtain ⟨i, al⟩ := q
    obtain ⟨hi, hip, hal, hid⟩ := hs.found _ hr
    have hleast := hs.least _ hr
    simp only at hi hip hal hid hleast
    have hxi := h.feas i (List.mem_range.1 hi)
    have hxi' : b i - dot2 (A i) x ≤ 0 := by unfold dot2; linarith
    have hal0 : 0 ≤ al := by rw [hal]; exact div_nonneg_of_nonpos hxi' hip.le
    have hstep : ∀ a : K × K, dot2 a (x.1 + al * p.1, x.2 + al * p.2) = dot2 a x + al * dot2 a p := by
      intro a; unfold dot2; ring
    refine ⟨i, al, rfl, ?_, ⟨List.mem_range.1 hi, h.lt1, ?_, ?_, ?_, ?_⟩, ?_⟩
    · intro he
      rw [he, hp1] at hip
      linarith [zero_lt_one (α := K)]
    · rw [det2_swap]; exact neg_ne_zero.2 hid
    · intro j hj
      change b j ≤ dot2 (A j) (x.1 + al * p.1, x.2 + al * p.2)
      rw [hstep]
      have hxj : b j ≤ dot2 (A j) x := h.feas j hj
      by_cases hjp : dot2 (A j) p < 0
      · have := hleast j (List.mem_range.2 hj) hjp (hdet j hjp)
        rw [le_div_iff_of_neg hjp] at this
        linarith
      · push Not at hjp
        have := mul_nonneg hal0 hjp
        linarith
    · rw [hstep, hal, div_mul_cancel₀ _ hip.ne]; ring
    · rw [hstep, hp0, h.tight1]; ring
    · have hi' : dot2 (A i) p = det2 (A i) (A o) / det2 (A t) (A o) := hpa _
      unfold lpLambda at hl ⊢
      have hne : det2 (A i) (A o) ≠ 0 := by rw [det2_swap]; exact neg_ne_zero.2 hid
      have : det2 c (A o) / det2 (A i) (A o) = (det2 c (A o) / det2 (A t) (A o)) / dot2 (A i) p := by
        rw [hi']
        have := h.det
        field_simp
      rw [this]
      exact div_pos_of_neg_of_neg hl hip

/-- The active-set step that follows, in one statement for both slots of the working set. -/
theorem lp_unfold (A : ℕ → K × K) (b : ℕ → K) (m : ℕ) (c : K × K) (hb : LPBounded A m) (n w0 w1 : ℕ) (x : K × K) (h : LPInv A b m w0 w1 x) :
    (lpSolve A b m c (n + 1) w0 w1 x = .optimal x ∧ 0 ≤ lpLambda c (A w0) (A w1) ∧ 0 ≤ lpLambda c (A w1) (A w0)) ∨
    (∃ i y, lpLambda c (A w0) (A w1) < 0 ∧ lpSolve A b m c (n + 1) w0 w1 x = lpSolve A b m c n i w1 y ∧ LPInv A b m i w1 y ∧ 0 < lpLambda c (A i) (A w1)) ∨
    (∃ i y, lpLambda c (A w1) (A w0) < 0 ∧ lpSolve A b m c (n + 1) w0 w1 x = lpSolve A b m c n w0 i y ∧ LPInv A b m w0 i y ∧ 0 < lpLambda c (A i) (A w0)) := by
  by_cases ho : 0 ≤ lpLambda c (A w0) (A w1) ∧ 0 ≤ lpLambda c (A w1) (A w0)
  · left
    refine ⟨?_, ho⟩
    show (if _ then _ else _) = _
    rw [if_neg h.det]
    exact if_pos ho
  · right
    by_cases hlt : lpLambda c (A w0) (A w1) < lpLambda c (A w1) (A w0)
    · left
      have hneg : lpLambda c (A w0) (A w1) < 0 := by
        by_contra hge
        push Not at hge
        exact ho ⟨hge, hge.trans hlt.le⟩
      obtain ⟨i, al, hs, hne, hi, hpos⟩ := lp_pivot A b m c hb w0 w1 x h hneg
      refine ⟨i, _, hneg, ?_, hi, hpos⟩
      show (if _ then _ else _) = _
      rw [if_neg h.det]
      refine (if_neg ho).trans ((if_pos hlt).trans ?_)
      simp only [hs, if_neg hne]
    · right
      have hneg : lpLambda c (A w1) (A w0) < 0 := by
        by_contra hge
        push Not at hge hlt
        exact ho ⟨hge.trans hlt, hge⟩
      obtain ⟨i, al, hs, hne, hi, hpos⟩ := lp_pivot A b m c hb w1 w0 x h.symm hneg
      refine ⟨i, _, hneg, ?_, hi.symm, hpos⟩
      show (if _ then _ else _) = _
      rw [if_neg h.det]
      refine (if_neg ho).trans ((if_neg hlt).trans ?_)
      simp only [hs, if_neg hne]

theorem lp_optimal_of_multipliers (A : ℕ → K × K) (b : ℕ → K) (m : ℕ) (c : K × K) (w0 w1 : ℕ) (x : K × K) (h : LPInv A b m w0 w1 x)
    (h0 : 0 ≤ lpLambda c (A w0) (A w1)) (h1 : 0 ≤ lpLambda c (A w1) (A w0)) : LPMinimizer A b m c x := by
  refine ⟨h.feas, fun y hy => ?_⟩
  obtain ⟨e1, e2⟩ := lam_decomp c (A w0) (A w1) h.det
  have t0 := h.tight0
  have t1 := h.tight1
  have y0 := hy w0 h.lt0
  have y1 := hy w1 h.lt1
  unfold dot2 at t0 t1
  generalize lpLambda c (A w0) (A w1) = l0 at *
  generalize lpLambda c (A w1) (A w0) = l1 at *
  rw [e1, e2]
  have m0 := mul_le_mul_of_nonneg_left y0 h0
  have m1 := mul_le_mul_of_nonneg_left y1 h1
  rw [← t0] at m0
  rw [← t1] at m1
  linarith

/-- Whatever the number of iterations: a returned point is a minimizer, and no assertion fails. -/
theorem lp_sound (A : ℕ → K × K) (b : ℕ → K) (m : ℕ) (c : K × K) (hb : LPBounded A m) (n w0 w1 : ℕ) (x : K × K) (h : LPInv A b m w0 w1 x) :
    (∃ y, lpSolve A b m c n w0 w1 x = .optimal y ∧ LPMinimizer A b m c y) ∨ lpSolve A b m c n w0 w1 x = .maxIter := by
  induction n generalizing w0 w1 x with
  | zero => right; rfl
  | succ n ih =>
    rcases lp_unfold A b m c hb n w0 w1 x h with ⟨hs, h0, h1⟩ | ⟨i, y, _, hs, hi, _⟩ | ⟨i, y, _, hs, hi, _⟩
    · left; exact ⟨x, hs, lp_optimal_of_multipliers A b m c w0 w1 x h h0 h1⟩
    · rw [hs]; exact ih i w1 y hi
    · rw [hs]; exact ih w0 i y hi

/-- The rows strictly between the cost vector and the row `e`. -/
noncomputable def coneRows (A : ℕ → K × K) (m : ℕ) (c e : K × K) : Finset ℕ :=
  open Classical in (Finset.range m).filter fun j => ∃ a d : K, 0 < a ∧ 0 < d ∧ (A j).1 = a * c.1 + d * e.1 ∧ (A j).2 = a * c.2 + d * e.2

omit [IsStrictOrderedRing K] in
theorem mem_coneRows (A : ℕ → K × K) (m : ℕ) (c e : K × K) (j : ℕ) :
    j ∈ coneRows A m c e ↔ j ∈ Finset.range m ∧ ∃ a d : K, 0 < a ∧ 0 < d ∧ (A j).1 = a * c.1 + d * e.1 ∧ (A j).2 = a * c.2 + d * e.2 := by
  classical
  unfold coneRows
  exact Finset.mem_filter

/-- After a further exchange the new row lies strictly between the cost vector and the previous one, so the set of such rows shrinks. -/
theorem cone_shrinks (A : ℕ → K × K) (m : ℕ) (c : K × K) (k e : ℕ) (hk : k < m) (hd : det2 (A k) (A e) ≠ 0)
    (h1 : 0 < lpLambda c (A k) (A e)) (h2 : lpLambda c (A e) (A k) < 0) : coneRows A m c (A k) ⊂ coneRows A m c (A e) := by
  obtain ⟨e1, e2⟩ := lam_decomp c (A k) (A e) hd
  generalize lpLambda c (A k) (A e) = mu at *
  generalize lpLambda c (A e) (A k) = la at *
  have hk1 : (A k).1 = 1 / mu * c.1 + -la / mu * (A e).1 := by field_simp; linear_combination -e1
  have hk2 : (A k).2 = 1 / mu * c.2 + -la / mu * (A e).2 := by field_simp; linear_combination -e2
  have ha : 0 < 1 / mu := one_div_pos.2 h1
  have hdl : 0 < -la / mu := div_pos (by linarith) h1
  have hck : det2 c (A k) ≠ 0 := by
    have : det2 c (A k) = -la * det2 (A k) (A e) := by
      unfold det2
      rw [e1, e2]
      ring
    rw [this]
    exact mul_ne_zero (by linarith [h2] |> fun h : 0 < -la => h.ne') hd
  rw [Finset.ssubset_iff_of_subset]
  · refine ⟨k, ?_, ?_⟩
    · rw [mem_coneRows]
      exact ⟨Finset.mem_range.2 hk, _, _, ha, hdl, hk1, hk2⟩
    · rw [mem_coneRows]
      rintro ⟨-, a, d, ha', -, f1, f2⟩
      apply hck
      -- det (A k) (A k) = a det c (A k)
      have : a * det2 c (A k) = 0 := by
        unfold det2
        linear_combination (A k).1 * f2 - (A k).2 * f1
      rcases mul_eq_zero.1 this with h | h
      · exact absurd h ha'.ne'
      · exact h
  · intro j hj
    rw [mem_coneRows] at hj ⊢
    obtain ⟨hjm, a, d, ha', hd', f1, f2⟩ := hj
    refine ⟨hjm, a + d * (1 / mu), d * (-la / mu), ?_, mul_pos hd' hdl, ?_, ?_⟩
    · have := mul_pos hd' ha; linarith
    · rw [f1, hk1]; ring
    · rw [f2, hk2]; ring

/-- From a state in which the row `e` has a positive multiplier the solver stops within as many iterations as there are rows between the cost vector and `e`, plus two. -/
theorem lp_finish (A : ℕ → K × K) (b : ℕ → K) (m : ℕ) (c : K × K) (hb : LPBounded A m) (n : ℕ) (w0 w1 : ℕ) (x : K × K) (h : LPInv A b m w0 w1 x)
    (hw : (0 < lpLambda c (A w0) (A w1) ∧ (coneRows A m c (A w0)).card ≤ n) ∨ (0 < lpLambda c (A w1) (A w0) ∧ (coneRows A m c (A w1)).card ≤ n)) :
    ∃ y, lpSolve A b m c (n + 2) w0 w1 x = .optimal y := by
  induction n generalizing w0 w1 x with
  | zero =>
    rcases lp_unfold A b m c hb 1 w0 w1 x h with ⟨hs, -, -⟩ | ⟨i, y, hneg, hs, hi, hpos⟩ | ⟨i, y, hneg, hs, hi, hpos⟩
    · exact ⟨x, hs⟩
    · rw [hs]
      rcases hw with ⟨hw, -⟩ | ⟨hw, hc⟩
      · exact absurd hneg (not_lt.2 hw.le)
      · rcases lp_unfold A b m c hb 0 i w1 y hi with ⟨hs', -, -⟩ | ⟨i', y', hneg', -, -, -⟩ | ⟨i', y', hneg', -, -, -⟩
        · exact ⟨y, hs'⟩
        · exact absurd hneg' (not_lt.2 hpos.le)
        · have := Finset.card_lt_card (cone_shrinks A m c i w1 hi.lt0 hi.det hpos hneg')
          omega
    · rw [hs]
      rcases hw with ⟨hw, hc⟩ | ⟨hw, -⟩
      · rcases lp_unfold A b m c hb 0 w0 i y hi with ⟨hs', -, -⟩ | ⟨i', y', hneg', -, -, -⟩ | ⟨i', y', hneg', -, -, -⟩
        · exact ⟨y, hs'⟩
        · have := Finset.card_lt_card (cone_shrinks A m c i w0 hi.lt1 hi.symm.det hpos hneg')
          omega
        · exact absurd hneg' (not_lt.2 hpos.le)
      · exact absurd hneg (not_lt.2 hw.le)
  | succ n ih =>
    rcases lp_unfold A b m c hb (n + 2) w0 w1 x h with ⟨hs, -, -⟩ | ⟨i, y, hneg, hs, hi, hpos⟩ | ⟨i, y, hneg, hs, hi, hpos⟩
    · exact ⟨x, hs⟩
    · rw [hs]
      rcases hw with ⟨hw, -⟩ | ⟨hw, hc⟩
      · exact absurd hneg (not_lt.2 hw.le)
      · by_cases hneg' : lpLambda c (A w1) (A i) < 0
        · have := Finset.card_lt_card (cone_shrinks A m c i w1 hi.lt0 hi.det hpos hneg')
          exact ih i w1 y hi (Or.inl ⟨hpos, by omega⟩)
        · rcases lp_unfold A b m c hb (n + 1) i w1 y hi with ⟨hs', -, -⟩ | ⟨i', y', hn, -, -, -⟩ | ⟨i', y', hn, -, -, -⟩
          · exact ⟨y, hs'⟩
          · exact absurd hn (not_lt.2 hpos.le)
          · exact absurd hn hneg'
    · rw [hs]
      rcases hw with ⟨hw, hc⟩ | ⟨hw, -⟩
      · by_cases hneg' : lpLambda c (A w0) (A i) < 0
        · have := Finset.card_lt_card (cone_shrinks A m c i w0 hi.lt1 hi.symm.det hpos hneg')
          exact ih w0 i y hi (Or.inr ⟨hpos, by omega⟩)
        · rcases lp_unfold A b m c hb (n + 1) w0 i y hi with ⟨hs', -, -⟩ | ⟨i', y', hn, -, -, -⟩ | ⟨i', y', hn, -, -, -⟩
          · exact ⟨y, hs'⟩
          · exact absurd hn hneg'
          · exact absurd hn (not_lt.2 hpos.le)
      · exact absurd hneg (not_lt.2 hw.le)

omit [IsStrictOrderedRing K] in
theorem coneRows_card (A : ℕ → K × K) (m : ℕ) (c e : K × K) : (coneRows A m c e).card ≤ m := by
  classical
  unfold coneRows
  exact (Finset.card_filter_le _ _).trans (Finset.card_range m).le

/-- C105: with at least `m + 3` iterations the solver neither throws nor fails an assertion and returns a feasible point of least cost, for every bounded problem with `m` constraints and every vertex given by two independent active constraints, degenerate or not. -/
theorem lp_solves (A : ℕ → K × K) (b : ℕ → K) (m : ℕ) (c : K × K) (hb : LPBounded A m) (x : K × K) (hm : 2 ≤ m)
    (hdet : (A 0).1 * (A 1).2 - (A 0).2 * (A 1).1 ≠ 0) (hf : LPFeasible A b m x)
    (h0 : (A 0).1 * x.1 + (A 0).2 * x.2 = b 0) (h1 : (A 1).1 * x.1 + (A 1).2 * x.2 = b 1) (n : ℕ) (hn : m + 3 ≤ n) :
    ∃ y, lpSolve A b m c n 0 1 x = .optimal y ∧ LPMinimizer A b m c y := by
  have h : LPInv A b m 0 1 x := ⟨by omega, by omega, hdet, hf, h0, h1⟩
  have hex : ∃ y, lpSolve A b m c n 0 1 x = .optimal y := by
    obtain ⟨k, rfl⟩ : ∃ k, n = (k + 2) + 1 := ⟨n - 3, by omega⟩
    rcases lp_unfold A b m c hb (k + 2) 0 1 x h with ⟨hs, -, -⟩ | ⟨i, y, hneg, hs, hi, hpos⟩ | ⟨i, y, hneg, hs, hi, hpos⟩
    · exact ⟨x, hs⟩
    · rw [hs]
      exact lp_finish A b m c hb k i 1 y hi (Or.inl ⟨hpos, (coneRows_card A m c _).trans (by omega)⟩)
    · rw [hs]
      exact lp_finish A b m c hb k 0 i y hi (Or.inr ⟨hpos, (coneRows_card A m c _).trans (by omega)⟩)
  obtain ⟨y, hy⟩ := hex
  rcases lp_sound A b m c hb n 0 1 x h with ⟨z, hz, hmin⟩ | hz
  · exact ⟨z, hz, hmin⟩
  · rw [hy] at hz; cases hz

/-! ### The limiter -/

/-- Specification: the limiter values lie in `[0,1]` and the limited linear reconstruction stays between the value of the cell and the value of the neighbour at the centroid of every neighbour (given by its offset and the difference of the values). -/
def LimiterOk (D : K × K) (nbs : List ((K × K) × K)) (l : K × K) : Prop :=
  0 ≤ l.1 ∧ l.1 ≤ 1 ∧ 0 ≤ l.2 ∧ l.2 ≤ 1 ∧
  ∀ nb ∈ nbs, min 0 nb.2 ≤ l.1 * D.1 * nb.1.1 + l.2 * D.2 * nb.1.2 ∧ l.1 * D.1 * nb.1.1 + l.2 * D.2 * nb.1.2 ≤ max 0 nb.2

theorem rows_feasible (rows : List ((K × K) × K)) (x : K × K) :
    LPFeasible (fun i => (rows.getD i ((0, 0), 0)).1) (fun i => (rows.getD i ((0, 0), 0)).2) rows.length x ↔ ∀ r ∈ rows, r.2 ≤ r.1.1 * x.1 + r.1.2 * x.2 := by
  constructor
  · intro h r hr
    obtain ⟨i, hi, rfl⟩ := List.mem_iff_getElem.1 hr
    have := h i hi
    simpa only [List.getD_eq_getElem _ _ hi] using this
  · intro h i hi
    have := h _ (List.getElem_mem hi)
    simpa only [List.getD_eq_getElem _ _ hi] using this

theorem limRows_iff (D : K × K) (nb : (K × K) × K) (l : K × K) :
    (∀ r ∈ limRows D nb, r.2 ≤ r.1.1 * l.1 + r.1.2 * l.2) ↔
      min 0 nb.2 ≤ l.1 * D.1 * nb.1.1 + l.2 * D.2 * nb.1.2 ∧ l.1 * D.1 * nb.1.1 + l.2 * D.2 * nb.1.2 ≤ max 0 nb.2 := by
  unfold limRows
  have e : l.1 * D.1 * nb.1.1 + l.2 * D.2 * nb.1.2 = nb.1.1 * D.1 * l.1 + nb.1.2 * D.2 * l.2 := by ring
  rw [e]
  by_cases h : nb.2 < 0
  · simp only [h, if_true, List.forall_mem_cons, List.not_mem_nil, false_imp_iff, implies_true, and_true, min_eq_right h.le, max_eq_left h.le]
    constructor
    · rintro ⟨h1, h2⟩; exact ⟨h1, by linarith⟩
    · rintro ⟨h1, h2⟩; exact ⟨h1, by linarith⟩
  · have h' := not_lt.1 h
    simp only [h, if_false, List.forall_mem_cons, List.not_mem_nil, false_imp_iff, implies_true, and_true, min_eq_left h', max_eq_right h']
    constructor
    · rintro ⟨h1, h2⟩; exact ⟨by linarith, by linarith⟩
    · rintro ⟨h1, h2⟩; exact ⟨by linarith, by linarith⟩

theorem limConstraints_iff (D : K × K) (nbs : List ((K × K) × K)) (l : K × K) :
    (∀ r ∈ limConstraints D nbs, r.2 ≤ r.1.1 * l.1 + r.1.2 * l.2) ↔ LimiterOk D nbs l := by
  unfold limConstraints LimiterOk
  rw [List.forall_mem_append]
  have h1 : (∀ r ∈ nbs.flatMap (limRows D), r.2 ≤ r.1.1 * l.1 + r.1.2 * l.2) ↔
      ∀ nb ∈ nbs, min 0 nb.2 ≤ l.1 * D.1 * nb.1.1 + l.2 * D.2 * nb.1.2 ∧ l.1 * D.1 * nb.1.1 + l.2 * D.2 * nb.1.2 ≤ max 0 nb.2 := by
    constructor
    · intro h nb hnb
      rw [← limRows_iff]
      exact fun r hr => h r (List.mem_flatMap.2 ⟨nb, hnb, hr⟩)
    · intro h r hr
      obtain ⟨nb, hnb, hr⟩ := List.mem_flatMap.1 hr
      exact (limRows_iff D nb l).2 (h nb hnb) r hr
  rw [h1]
  simp only [List.forall_mem_cons, List.not_mem_nil, false_imp_iff, implies_true, and_true]
  constructor
  · rintro ⟨⟨a, b, c, d⟩, e⟩
    exact ⟨by linarith, by linarith, by linarith, by linarith, e⟩
  · rintro ⟨a, b, c, d, e⟩
    exact ⟨⟨by linarith, by linarith, by linarith, by linarith⟩, e⟩

omit [IsStrictOrderedRing K] in
theorem limConstraints_length (D : K × K) (nbs : List ((K × K) × K)) : (limConstraints D nbs).length = 4 + 2 * nbs.length := by
  unfold limConstraints
  rw [List.length_append]
  congr 1
  induction nbs with
  | nil => rfl
  | cons a t ih =>
    rw [List.flatMap_cons, List.length_append, ih]
    have : (limRows D a).length = 2 := by unfold limRows; simp only; split <;> rfl
    rw [this, List.length_cons]; ring

/-- C105: for every gradient and every set of at most 46 neighbours the limiter returns (no exception, no failed assertion, within the 100 iterations) values in `[0,1]` with which the reconstruction does not overshoot any neighbour, and no other such values keep more of the gradient. -/
theorem md_limiter_optimal (D : K × K) (nbs : List ((K × K) × K)) (hn : nbs.length ≤ 46) :
    ∃ l, limSolve D nbs = .optimal l ∧ LimiterOk D nbs l ∧ ∀ l', LimiterOk D nbs l' → |D.1| * l'.1 + |D.2| * l'.2 ≤ |D.1| * l.1 + |D.2| * l.2 := by
  unfold limSolve
  simp only
  have hlen := limConstraints_length D nbs
  have hfe := rows_feasible (limConstraints D nbs)
  have hci := limConstraints_iff D nbs
  have hz : LimiterOk D nbs (0, 0) := by
    refine ⟨le_refl _, zero_le_one, le_refl _, zero_le_one, fun nb _ => ?_⟩
    simp
  have hb : LPBounded (fun i => ((limConstraints D nbs).getD i ((0, 0), 0)).1) (limConstraints D nbs).length := by
    intro p hp
    rw [hlen]
    by_cases h1 : p.1 = 0
    · have h2 : p.2 ≠ 0 := fun h2 => hp (Prod.ext h1 h2)
      rcases lt_or_gt_of_ne h2 with h | h
      · refine ⟨1, by omega, ?_⟩
        change (0 : K) * p.1 + 1 * p.2 < 0
        linarith
      · refine ⟨3, by omega, ?_⟩
        change (0 : K) * p.1 + (-1) * p.2 < 0
        linarith
    · rcases lt_or_gt_of_ne h1 with h | h
      · refine ⟨0, by omega, ?_⟩
        change (1 : K) * p.1 + 0 * p.2 < 0
        linarith
      · refine ⟨2, by omega, ?_⟩
        change (-1 : K) * p.1 + 0 * p.2 < 0
        linarith
  have hdet : (1 : K) * 1 - 0 * 0 ≠ 0 := by norm_num
  have h0 : (1 : K) * 0 + 0 * 0 = 0 := by ring
  have h1 : (0 : K) * 0 + 1 * 0 = 0 := by ring
  obtain ⟨l, hl, hmin⟩ := lp_solves _ (fun i => ((limConstraints D nbs).getD i ((0, 0), 0)).2) _ (-|D.1|, -|D.2|) hb (0, 0) (by omega)
    hdet ((hfe (0, 0)).2 ((hci (0, 0)).2 hz)) h0 h1 100 (by omega)
  refine ⟨l, hl, (hci l).1 ((hfe l).1 hmin.1), fun l' hl' => ?_⟩
  have := hmin.2 l' ((hfe l').2 ((hci l').2 hl'))
  simp only at this
  linarith

/-! ### The limiter on the grid -/

omit [IsStrictOrderedRing K] in
/-- Which neighbours enter: cells sharing a face, of positive volume, whose centroid relative to the centroid of the cell is not below the boundary of the cell. -/
theorem connected_iff (g : EbGeom K) (i j : ℤ × ℤ) :
    isConnected g i j = true ↔ 0 < g.vol j.1 j.2 ∧ (j.1 - i.1) ^ 2 + (j.2 - i.2) ^ 2 = 1 ∧
      (g.nrm i.1 i.2).1 * (g.bc i.1 i.2).1 + (g.nrm i.1 i.2).2 * (g.bc i.1 i.2).2 ≤
        (g.nrm i.1 i.2).1 * (((j.1 - i.1 : ℤ) : K) + (g.vc j.1 j.2).1 - (g.vc i.1 i.2).1) +
        (g.nrm i.1 i.2).2 * (((j.2 - i.2 : ℤ) : K) + (g.vc j.1 j.2).2 - (g.vc i.1 i.2).2) := by
  unfold isConnected
  by_cases h1 : i ≠ j ∧ g.vol j.1 j.2 > 0
  · rw [if_pos h1]
    simp only
    by_cases h2 : (j.1 - i.1) ^ 2 + (j.2 - i.2) ^ 2 = 1
    · rw [if_neg (not_not.2 h2)]
      rw [decide_eq_true_eq]
      exact ⟨fun h => ⟨h1.2, h2, h⟩, fun h => h.2.2⟩
    · rw [if_pos h2]
      constructor
      · intro h; cases h
      · intro h; exact absurd h.2.1 h2
  · rw [if_neg h1]
    constructor
    · intro h; cases h
    · rintro ⟨h, h2, -⟩
      refine absurd ⟨?_, h⟩ h1
      rintro rfl
      simp at h2

theorem sq_add_sq_one (a b : ℤ) (h : a ^ 2 + b ^ 2 = 1) : (a = 0 ∧ (b = 1 ∨ b = -1)) ∨ (b = 0 ∧ (a = 1 ∨ a = -1)) := by
  have ha : a ≤ 1 := by nlinarith [sq_nonneg b]
  have ha' : -1 ≤ a := by nlinarith [sq_nonneg b]
  have hb : b ≤ 1 := by nlinarith [sq_nonneg a]
  have hb' : -1 ≤ b := by nlinarith [sq_nonneg a]
  interval_cases a <;> interval_cases b <;> simp_all

omit [IsStrictOrderedRing K] in
theorem mem_connected (g : EbGeom K) (i j : ℤ × ℤ) : j ∈ (neighborhood i).filter (isConnected g i) ↔ isConnected g i j = true := by
  rw [List.mem_filter]
  refine ⟨fun h => h.2, fun h => ⟨?_, h⟩⟩
  have h2 := ((connected_iff g i j).1 h).2.1
  obtain ⟨j1, j2⟩ := j
  obtain ⟨i1, i2⟩ := i
  unfold neighborhood
  simp only at h2 ⊢
  rcases sq_add_sq_one _ _ h2 with ⟨ha, hb | hb⟩ | ⟨hb, ha | ha⟩
  · have e1 : j1 = i1 := by omega
    have e2 : j2 = i2 + 1 := by omega
    subst e1 e2; simp
  · have e1 : j1 = i1 := by omega
    have e2 : j2 = i2 - 1 := by omega
    subst e1 e2; simp
  · have e1 : j1 = i1 + 1 := by omega
    have e2 : j2 = i2 := by omega
    subst e1 e2; simp
  · have e1 : j1 = i1 - 1 := by omega
    have e2 : j2 = i2 := by omega
    subst e1 e2; simp

/-- Specification: with the gradient `G` the linear reconstruction of cell `i` stays between the values of the cell and of every connected neighbour, at the centroid of that neighbour. -/
def NoOvershoot (g : EbGeom K) (dx : K × K) (u : ℤ → ℤ → K) (i : ℤ × ℤ) (G : K × K) : Prop :=
  ∀ j, isConnected g i j = true →
    min (u i.1 i.2) (u j.1 j.2) ≤ u i.1 i.2 + G.1 * ((absCentroid g dx j.1 j.2).1 - (absCentroid g dx i.1 i.2).1) + G.2 * ((absCentroid g dx j.1 j.2).2 - (absCentroid g dx i.1 i.2).2) ∧
    u i.1 i.2 + G.1 * ((absCentroid g dx j.1 j.2).1 - (absCentroid g dx i.1 i.2).1) + G.2 * ((absCentroid g dx j.1 j.2).2 - (absCentroid g dx i.1 i.2).2) ≤ max (u i.1 i.2) (u j.1 j.2)

theorem min_shift (a b : K) : min 0 (b - a) = min a b - a := by
  rcases le_total a b with h | h
  · rw [min_eq_left h, min_eq_left (by linarith)]; ring
  · rw [min_eq_right h, min_eq_right (by linarith)]

theorem max_shift (a b : K) : max 0 (b - a) = max a b - a := by
  rcases le_total a b with h | h
  · rw [max_eq_right h, max_eq_right (by linarith)]
  · rw [max_eq_left h, max_eq_left (by linarith)]; ring

theorem limiterOk_iff (g : EbGeom K) (dx : K × K) (u : ℤ → ℤ → K) (i : ℤ × ℤ) (D l : K × K) :
    LimiterOk D (limNeighbors g dx u i) l ↔ 0 ≤ l.1 ∧ l.1 ≤ 1 ∧ 0 ≤ l.2 ∧ l.2 ≤ 1 ∧ NoOvershoot g dx u i (l.1 * D.1, l.2 * D.2) := by
  unfold LimiterOk NoOvershoot limNeighbors
  simp only [List.forall_mem_map, mem_connected, min_shift, max_shift]
  constructor
  · rintro ⟨a, b, c, d, e⟩
    refine ⟨a, b, c, d, fun j hj => ?_⟩
    have := e j hj
    exact ⟨by linarith [this.1], by linarith [this.2]⟩
  · rintro ⟨a, b, c, d, e⟩
    refine ⟨a, b, c, d, fun j hj => ?_⟩
    have := e j hj
    exact ⟨by linarith [this.1], by linarith [this.2]⟩

/-- C105 (partial: neighbours behind open faces that do not count as connected are missing): for every geometry, every field and every gradient of a cell the limiter returns a gradient that is the given one scaled in each direction by a factor in `[0,1]`, does not overshoot any connected neighbour, and keeps as much of the gradient as any such scaling can. -/
theorem md_limiter_partial (g : EbGeom K) (dx : K × K) (u : ℤ → ℤ → K) (i : ℤ × ℤ) (D : K × K) :
    ∃ lx ly : K, limitGradient g dx u i D = some (lx * D.1, ly * D.2) ∧ 0 ≤ lx ∧ lx ≤ 1 ∧ 0 ≤ ly ∧ ly ≤ 1 ∧ NoOvershoot g dx u i (lx * D.1, ly * D.2) ∧
      ∀ kx ky : K, 0 ≤ kx → kx ≤ 1 → 0 ≤ ky → ky ≤ 1 → NoOvershoot g dx u i (kx * D.1, ky * D.2) →
        |kx * D.1| + |ky * D.2| ≤ |lx * D.1| + |ly * D.2| := by
  have hlen : (limNeighbors g dx u i).length ≤ 46 := by
    unfold limNeighbors
    rw [List.length_map]
    refine (List.length_filter_le _ _).trans ?_
    unfold neighborhood
    simp
  obtain ⟨l, hl, hok, hmax⟩ := md_limiter_optimal D (limNeighbors g dx u i) hlen
  obtain ⟨a, b, c, d, e⟩ := (limiterOk_iff g dx u i D l).1 hok
  refine ⟨l.1, l.2, ?_, a, b, c, d, e, fun kx ky h1 h2 h3 h4 h5 => ?_⟩
  · unfold limitGradient
    rw [hl]
  · have := hmax (kx, ky) ((limiterOk_iff g dx u i D (kx, ky)).2 ⟨h1, h2, h3, h4, h5⟩)
    rw [abs_mul, abs_mul, abs_mul, abs_mul, abs_of_nonneg h1, abs_of_nonneg h3, abs_of_nonneg a, abs_of_nonneg c]
    simp only at this
    linarith

/-- C105: a gradient that overshoots no connected neighbour is not changed; in particular limiting twice is limiting once. -/
theorem md_limiter_unchanged (g : EbGeom K) (dx : K × K) (u : ℤ → ℤ → K) (i : ℤ × ℤ) (D : K × K) (h : NoOvershoot g dx u i D) :
    limitGradient g dx u i D = some D := by
  obtain ⟨lx, ly, hl, a, b, c, d, -, hmax⟩ := md_limiter_partial g dx u i D
  have := hmax 1 1 zero_le_one le_rfl zero_le_one le_rfl (by rw [one_mul, one_mul]; exact h)
  rw [one_mul, one_mul, abs_mul, abs_mul, abs_of_nonneg a, abs_of_nonneg c] at this
  rw [hl]
  have h1 : lx * |D.1| ≤ |D.1| := mul_le_of_le_one_left (abs_nonneg _) b
  have h2 : ly * |D.2| ≤ |D.2| := mul_le_of_le_one_left (abs_nonneg _) d
  have e1 : lx * D.1 = D.1 := by
    have : (1 - lx) * |D.1| = 0 := by linarith
    rcases mul_eq_zero.1 this with h | h
    · rw [show lx = 1 by linarith]; ring
    · rw [abs_eq_zero.1 h]; ring
  have e2 : ly * D.2 = D.2 := by
    have : (1 - ly) * |D.2| = 0 := by linarith
    rcases mul_eq_zero.1 this with h | h
    · rw [show ly = 1 by linarith]; ring
    · rw [abs_eq_zero.1 h]; ring
  rw [e1, e2]

theorem md_limiter_idempotent (g : EbGeom K) (dx : K × K) (u : ℤ → ℤ → K) (i : ℤ × ℤ) (D G : K × K) (h : limitGradient g dx u i D = some G) :
    limitGradient g dx u i G = some G := by
  obtain ⟨lx, ly, hl, -, -, -, -, hno, -⟩ := md_limiter_partial g dx u i D
  rw [h] at hl
  cases hl
  exact md_limiter_unchanged g dx u i _ hno

/-- Specification: the cell and its four neighbours are not cut. -/
def RegularPatch (g : EbGeom K) (i : ℤ × ℤ) : Prop :=
  g.nrm i.1 i.2 = (0, 0) ∧ ∀ j : ℤ × ℤ, (j.1 - i.1) ^ 2 + (j.2 - i.2) ^ 2 ≤ 1 → 0 < g.vol j.1 j.2 ∧ g.vc j.1 j.2 = (0, 0)

/-- C105: away from walls all four neighbours count, and at a local extremum the limited gradient vanishes. -/
theorem md_limiter_extremum (g : EbGeom K) (dx : K × K) (hdx : 0 < dx.1 ∧ 0 < dx.2) (u : ℤ → ℤ → K) (i : ℤ × ℤ) (D : K × K) (hr : RegularPatch g i)
    (hext : (∀ j : ℤ × ℤ, (j.1 - i.1) ^ 2 + (j.2 - i.2) ^ 2 = 1 → u j.1 j.2 ≤ u i.1 i.2) ∨ (∀ j : ℤ × ℤ, (j.1 - i.1) ^ 2 + (j.2 - i.2) ^ 2 = 1 → u i.1 i.2 ≤ u j.1 j.2)) :
    limitGradient g dx u i D = some (0, 0) := by
  obtain ⟨lx, ly, hl, -, -, -, -, hno, -⟩ := md_limiter_partial g dx u i D
  rw [hl]
  generalize lx * D.1 = gx at *
  generalize ly * D.2 = gy at *
  have hconn : ∀ j : ℤ × ℤ, (j.1 - i.1) ^ 2 + (j.2 - i.2) ^ 2 = 1 → isConnected g i j = true := by
    intro j hj
    rw [connected_iff, hr.1]
    refine ⟨(hr.2 j hj.le).1, hj, ?_⟩
    simp
  have hcent : ∀ j : ℤ × ℤ, (j.1 - i.1) ^ 2 + (j.2 - i.2) ^ 2 ≤ 1 → absCentroid g dx j.1 j.2 = ((j.1 : K) * dx.1 + 1 / 2 * dx.1, (j.2 : K) * dx.2 + 1 / 2 * dx.2) := by
    intro j hj
    unfold absCentroid
    rw [(hr.2 j hj).2]
    simp
  have hc := hcent i (by simp)
  have key : ∀ j : ℤ × ℤ, (j.1 - i.1) ^ 2 + (j.2 - i.2) ^ 2 = 1 →
      min (u i.1 i.2) (u j.1 j.2) ≤ u i.1 i.2 + gx * (((j.1 : K) - i.1) * dx.1) + gy * (((j.2 : K) - i.2) * dx.2) ∧
      u i.1 i.2 + gx * (((j.1 : K) - i.1) * dx.1) + gy * (((j.2 : K) - i.2) * dx.2) ≤ max (u i.1 i.2) (u j.1 j.2) := by
    intro j hj
    have := hno j (hconn j hj)
    rw [hcent j hj.le, hc] at this
    simp only at this
    have e1 : (j.1 : K) * dx.1 + 1 / 2 * dx.1 - ((i.1 : K) * dx.1 + 1 / 2 * dx.1) = ((j.1 : K) - i.1) * dx.1 := by ring
    have e2 : (j.2 : K) * dx.2 + 1 / 2 * dx.2 - ((i.2 : K) * dx.2 + 1 / 2 * dx.2) = ((j.2 : K) - i.2) * dx.2 := by ring
    rw [e1, e2] at this
    exact this
  have k1 := key (i.1 + 1, i.2) (by simp)
  have k2 := key (i.1 - 1, i.2) (by simp)
  have k3 := key (i.1, i.2 + 1) (by simp)
  have k4 := key (i.1, i.2 - 1) (by simp)
  simp only [Int.cast_add, Int.cast_sub, Int.cast_one, sub_self, zero_mul, mul_zero, add_zero] at k1 k2 k3 k4
  have hx : gx * dx.1 = 0 ∧ gy * dx.2 = 0 := by
    rcases hext with hext | hext
    · have x1 := hext (i.1 + 1, i.2) (by simp)
      have x2 := hext (i.1 - 1, i.2) (by simp)
      have x3 := hext (i.1, i.2 + 1) (by simp)
      have x4 := hext (i.1, i.2 - 1) (by simp)
      simp only at x1 x2 x3 x4
      rw [max_eq_left x1] at k1
      rw [max_eq_left x2] at k2
      rw [max_eq_left x3] at k3
      rw [max_eq_left x4] at k4
      constructor
      · apply le_antisymm <;> nlinarith [k1.2, k2.2]
      · apply le_antisymm <;> nlinarith [k3.2, k4.2]
    · have x1 := hext (i.1 + 1, i.2) (by simp)
      have x2 := hext (i.1 - 1, i.2) (by simp)
      have x3 := hext (i.1, i.2 + 1) (by simp)
      have x4 := hext (i.1, i.2 - 1) (by simp)
      simp only at x1 x2 x3 x4
      rw [min_eq_left x1] at k1
      rw [min_eq_left x2] at k2
      rw [min_eq_left x3] at k3
      rw [min_eq_left x4] at k4
      constructor
      · apply le_antisymm <;> nlinarith [k1.1, k2.1]
      · apply le_antisymm <;> nlinarith [k3.1, k4.1]
  have g1 : gx = 0 := (mul_eq_zero.1 hx.1).resolve_right hdx.1.ne'
  have g2 : gy = 0 := (mul_eq_zero.1 hx.2).resolve_right hdx.2.ne'
  rw [g1, g2]

/-- A geometry without walls. -/
def freeGeom : EbGeom ℚ := ⟨fun _ _ => 1, fun _ _ => (0, 0), fun _ _ => (0, 0), fun _ _ => (0, 0), fun _ _ => 1, fun _ _ => 1⟩

example : RegularPatch freeGeom (0, 0) := ⟨rfl, fun _ _ => ⟨by unfold freeGeom; norm_num, rfl⟩⟩

/-- Concrete runs of the limiter: both slopes cut, nothing cut, one slope cut. -/
example : limitGradient freeGeom (1, 1) (fun i j => if i = 1 then 1 else if i = -1 then -2 else if j = 1 then 1 else if j = -1 then -1 else 0) (0, 0) (2, 3) = some (1, 1) := by
  decide +kernel

example : limitGradient freeGeom (1, 1) (fun i j => 3 * (i : ℚ) - 2 * j) (4, 5) (3, -2) = some (3, -2) := by
  decide +kernel

example : limitGradient freeGeom (1, 1) (fun i j => 3 * (i : ℚ) - 2 * j) (4, 5) (3, -5) = some (3, -2) := by
  decide +kernel

/-- A flat wall at the lower part of a row of cells: the fluid fills the upper three tenths. -/
def flatWall : EbGeom ℚ :=
  ⟨fun _ j => if j = 0 then 3 / 10 else if 0 < j then 1 else 0, fun _ j => if j = 0 then (0, 7 / 20) else (0, 0), fun _ j => if j = 0 then (0, 1 / 5) else (0, 0),
   fun _ j => if j = 0 then (0, 1) else (0, 0), fun _ j => if j = 0 then 3 / 10 else if 0 < j then 1 else 0, fun _ j => if 0 < j then 1 else 0⟩

/-- Disagreement (C105): neighbours with which a cut cell shares an open face need not count as connected, and the limited gradient overshoots them. -/
theorem md_limiter_misses_open_neighbour :
    0 < flatWall.faceX 1 0 ∧ 0 < flatWall.vol 1 0 ∧ isConnected flatWall (0, 0) (1, 0) = false ∧
    limitGradient flatWall (1, 1) (fun i _ => if i = 1 then 1 else 0) (0, 0) (2, 0) = some (2, 0) ∧
    ¬ ((0 : ℚ) + 2 * ((absCentroid flatWall (1, 1) 1 0).1 - (absCentroid flatWall (1, 1) 0 0).1) ≤ max 0 1) := by
  decide +kernel

end Fub
