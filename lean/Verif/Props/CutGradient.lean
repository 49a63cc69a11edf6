import Verif.Model.MdLimiter
import Verif.Props.MdLimiter
import Mathlib.Data.List.TakeWhile

/-!
C106: the least squares gradients of cut cells.
-/

namespace Fub

section
variable {K : Type} [Field K] [LinearOrder K] [IsStrictOrderedRing K]

/-- Specification: the sum of the squared errors of the gradient `G` over the points (offset, difference of values). -/
def sqError (pts : List ((K × K) × K)) (G : K × K) : K := (pts.map fun q => (G.1 * q.1.1 + G.2 * q.1.2 - q.2) ^ 2).sum

omit [LinearOrder K] [IsStrictOrderedRing K] in
theorem sqError_expand (pts : List ((K × K) × K)) (G : K × K) :
    sqError pts G = G.1 ^ 2 * (pts.map fun q => q.1.1 * q.1.1).sum + 2 * G.1 * G.2 * (pts.map fun q => q.1.1 * q.1.2).sum + G.2 ^ 2 * (pts.map fun q => q.1.2 * q.1.2).sum
      - 2 * G.1 * (pts.map fun q => q.1.1 * q.2).sum - 2 * G.2 * (pts.map fun q => q.1.2 * q.2).sum + (pts.map fun q => q.2 * q.2).sum := by
  unfold sqError
  induction pts with
  | nil => simp
  | cons a t ih => simp only [List.map_cons, List.sum_cons, ih]; ring

theorem sum_sq_nonneg' (pts : List ((K × K) × K)) (v : K × K) : 0 ≤ (pts.map fun q => (v.1 * q.1.1 + v.2 * q.1.2) ^ 2).sum := by
  induction pts with
  | nil => simp
  | cons a t ih =>
    simp only [List.map_cons, List.sum_cons]
    exact add_nonneg (sq_nonneg _) ih

theorem sum_sq_zero (pts : List ((K × K) × K)) (v : K × K) (h : (pts.map fun q => (v.1 * q.1.1 + v.2 * q.1.2) ^ 2).sum = 0) :
    ∀ q ∈ pts, v.1 * q.1.1 + v.2 * q.1.2 = 0 := by
  induction pts with
  | nil => intro q hq; cases hq
  | cons a t ih =>
    simp only [List.map_cons, List.sum_cons] at h
    have h1 := sum_sq_nonneg' t v
    have h2 := sq_nonneg (v.1 * a.1.1 + v.2 * a.1.2)
    intro q hq
    rcases List.mem_cons.1 hq with rfl | hq
    · exact pow_eq_zero_iff (two_ne_zero) |>.1 (by linarith)
    · exact ih (by linarith) q hq

omit [LinearOrder K] [IsStrictOrderedRing K] in
theorem sum_sq_expand (pts : List ((K × K) × K)) (v : K × K) : (pts.map fun q => (v.1 * q.1.1 + v.2 * q.1.2) ^ 2).sum =
    v.1 ^ 2 * (pts.map fun q => q.1.1 * q.1.1).sum + 2 * v.1 * v.2 * (pts.map fun q => q.1.1 * q.1.2).sum + v.2 ^ 2 * (pts.map fun q => q.1.2 * q.1.2).sum := by
  induction pts with
  | nil => simp
  | cons a t ih => simp only [List.map_cons, List.sum_cons, ih]; ring

/-- C106: the gradient of a cut cell minimizes the sum of the squared errors at the neighbours used. -/
theorem lsq_minimal (pts : List ((K × K) × K)) (G : K × K) (h : lsqGradient pts = some G) (H : K × K) : sqError pts G ≤ sqError pts H := by
  have hq := sum_sq_nonneg' pts (H.1 - G.1, H.2 - G.2)
  rw [sum_sq_expand] at hq
  rw [sqError_expand, sqError_expand]
  unfold lsqGradient at h
  simp only at h
  generalize (pts.map fun q => q.1.1 * q.1.1).sum = sxx at *
  generalize (pts.map fun q => q.1.1 * q.1.2).sum = sxy at *
  generalize (pts.map fun q => q.1.2 * q.1.2).sum = syy at *
  generalize (pts.map fun q => q.1.1 * q.2).sum = bx at *
  generalize (pts.map fun q => q.1.2 * q.2).sum = bY at *
  split at h
  · cases h
  · rename_i hd
    cases h
    simp only at hq ⊢
    have n1 : sxx * ((syy * bx - sxy * bY) / (sxx * syy - sxy * sxy)) + sxy * ((sxx * bY - sxy * bx) / (sxx * syy - sxy * sxy)) = bx := by
      rw [mul_div_assoc', mul_div_assoc', ← add_div, div_eq_iff hd]; ring
    have n2 : sxy * ((syy * bx - sxy * bY) / (sxx * syy - sxy * sxy)) + syy * ((sxx * bY - sxy * bx) / (sxx * syy - sxy * sxy)) = bY := by
      rw [mul_div_assoc', mul_div_assoc', ← add_div, div_eq_iff hd]; ring
    generalize (syy * bx - sxy * bY) / (sxx * syy - sxy * sxy) = g1 at *
    generalize (sxx * bY - sxy * bx) / (sxx * syy - sxy * sxy) = g2 at *
    have key : H.1 ^ 2 * sxx + 2 * H.1 * H.2 * sxy + H.2 ^ 2 * syy - 2 * H.1 * bx - 2 * H.2 * bY - (g1 ^ 2 * sxx + 2 * g1 * g2 * sxy + g2 ^ 2 * syy - 2 * g1 * bx - 2 * g2 * bY)
        = (H.1 - g1) ^ 2 * sxx + 2 * (H.1 - g1) * (H.2 - g2) * sxy + (H.2 - g2) ^ 2 * syy := by
      rw [← n1, ← n2]; ring
    linarith

/-- C106: two neighbours in different directions suffice for a gradient. -/
theorem lsq_exists (pts : List ((K × K) × K)) (p q : (K × K) × K) (hp : p ∈ pts) (hq : q ∈ pts) (hd : p.1.1 * q.1.2 - p.1.2 * q.1.1 ≠ 0) :
    ∃ G, lsqGradient pts = some G := by
  have hex := sum_sq_expand pts
  have hz := sum_sq_zero pts
  unfold lsqGradient
  simp only
  split
  · rename_i h0
    exfalso
    have hz1 := hz ((pts.map fun q => q.1.1 * q.1.2).sum, -(pts.map fun q => q.1.1 * q.1.1).sum) (by
      rw [hex]
      linear_combination (pts.map fun q => q.1.1 * q.1.1).sum * h0)
    have hz2 := hz ((pts.map fun q => q.1.2 * q.1.2).sum, -(pts.map fun q => q.1.1 * q.1.2).sum) (by
      rw [hex]
      linear_combination (pts.map fun q => q.1.2 * q.1.2).sum * h0)
    have a1 := hz1 p hp
    have a2 := hz1 q hq
    have a3 := hz2 p hp
    have a4 := hz2 q hq
    simp only at a1 a2 a3 a4
    have hx := hz (1, 0)
    rw [hex] at hx
    have hy := hz (0, 1)
    rw [hex] at hy
    generalize (pts.map fun q => q.1.1 * q.1.1).sum = sxx at *
    generalize (pts.map fun q => q.1.1 * q.1.2).sum = sxy at *
    generalize (pts.map fun q => q.1.2 * q.1.2).sum = syy at *
    have e1 : sxx * (p.1.1 * q.1.2 - p.1.2 * q.1.1) = 0 := by linear_combination -p.1.1 * a2 + q.1.1 * a1
    have s1 : sxx = 0 := (mul_eq_zero.1 e1).resolve_right hd
    have e2 : syy * (p.1.1 * q.1.2 - p.1.2 * q.1.1) = 0 := by linear_combination q.1.2 * a3 - p.1.2 * a4
    have s2 : syy = 0 := (mul_eq_zero.1 e2).resolve_right hd
    have hx' := hx (by rw [s1]; ring)
    have hy' := hy (by rw [s2]; ring)
    have b1 := hx' p hp
    have b2 := hx' q hq
    simp only at b1 b2
    apply hd
    linear_combination q.1.2 * b1 - p.1.2 * b2
  · exact ⟨_, rfl⟩

omit [IsStrictOrderedRing K] in
/-- C106: the gradient of affine data is exact. -/
theorem lsq_affine (pts : List ((K × K) × K)) (G H : K × K) (h : lsqGradient pts = some G) (ha : ∀ q ∈ pts, q.2 = H.1 * q.1.1 + H.2 * q.1.2) : G = H := by
  have hbx : (pts.map fun q => q.1.1 * q.2).sum = H.1 * (pts.map fun q => q.1.1 * q.1.1).sum + H.2 * (pts.map fun q => q.1.1 * q.1.2).sum := by
    clear h
    induction pts with
    | nil => simp
    | cons a t ih =>
      simp only [List.map_cons, List.sum_cons]
      rw [ih (fun q hq => ha q (List.mem_cons_of_mem _ hq)), ha a List.mem_cons_self]; ring
  have hby : (pts.map fun q => q.1.2 * q.2).sum = H.1 * (pts.map fun q => q.1.1 * q.1.2).sum + H.2 * (pts.map fun q => q.1.2 * q.1.2).sum := by
    clear h hbx
    induction pts with
    | nil => simp
    | cons a t ih =>
      simp only [List.map_cons, List.sum_cons]
      rw [ih (fun q hq => ha q (List.mem_cons_of_mem _ hq)), ha a List.mem_cons_self]; ring
  unfold lsqGradient at h
  simp only at h
  rw [hbx, hby] at h
  split at h
  · cases h
  · rename_i hd
    cases h
    refine Prod.ext ?_ ?_
    · simp only
      rw [div_eq_iff hd]; ring
    · simp only
      rw [div_eq_iff hd]; ring

omit [IsStrictOrderedRing K] in
/-- C106: if the field is affine in the centroids of the cells, a gradient computed for a cut cell is the gradient of the field, whichever neighbours are used. -/
theorem cut_gradient_affine (g : EbGeom K) (dx : K × K) (u : ℤ → ℤ → K) (i j : ℤ) (a : K) (H G : K × K)
    (hu : ∀ k l, u k l = a + H.1 * (absCentroid g dx k l).1 + H.2 * (absCentroid g dx k l).2) (h : cutGradient g dx u i j = some G) : G = H := by
  unfold cutGradient at h
  split at h
  · cases h
  · rename_i cells hc
    apply lsq_affine _ _ _ h
    intro q hq
    obtain ⟨c, -, rfl⟩ := List.mem_map.1 hq
    simp only
    rw [hu, hu]; ring

/-! ### Sorting the neighbours -/
end

theorem stlInsert_perm {α : Type} (cmp : α → α → Bool) (l : List α) (v : α) : (stlInsert cmp l v).Perm (v :: l) := by
  unfold stlInsert
  cases l with
  | nil => exact List.Perm.refl _
  | cons h t =>
    simp only
    split
    · exact List.Perm.refl _
    · generalize hl : h :: t = l
      have h1 : (l.reverse.dropWhile (cmp v)).reverse ++ [v] ++ (l.reverse.takeWhile (cmp v)).reverse = ((l.reverse.takeWhile (cmp v)) ++ v :: (l.reverse.dropWhile (cmp v))).reverse := by
        simp
      rw [h1]
      refine (List.reverse_perm _).trans (List.perm_middle.trans ?_)
      rw [List.takeWhile_append_dropWhile]
      exact (List.reverse_perm l).cons v

theorem stlSort_perm {α : Type} (cmp : α → α → Bool) (l : List α) : (stlSort cmp l).Perm l := by
  unfold stlSort
  suffices h : ∀ acc, (l.foldl (stlInsert cmp) acc).Perm (acc ++ l) by simpa using h []
  induction l with
  | nil => intro acc; simp
  | cons a t ih =>
    intro acc
    rw [List.foldl_cons]
    refine (ih _).trans ?_
    refine ((stlInsert_perm cmp acc a).append_right t).trans ?_
    rw [List.cons_append]
    exact List.perm_middle.symm

theorem stlInsert_sorted {α : Type} (cmp : α → α → Bool) (l : List α) (v : α) (htr : ∀ a b c, cmp a b = true → cmp b c = true → cmp a c = true)
    (htot : ∀ a ∈ l, cmp v a = true ∨ cmp a v = true) (hs : l.Pairwise fun a b => cmp a b = true) : (stlInsert cmp l v).Pairwise fun a b => cmp a b = true := by
  unfold stlInsert
  cases l with
  | nil => simp
  | cons h t =>
    simp only
    split
    · rename_i hv
      rw [List.pairwise_cons]
      refine ⟨fun a ha => ?_, hs⟩
      rcases List.mem_cons.1 ha with rfl | ha
      · exact hv
      · exact htr _ _ _ hv ((List.pairwise_cons.1 hs).1 a ha)
    · generalize h :: t = l at *
      have hdec : l = (l.reverse.dropWhile (cmp v)).reverse ++ (l.reverse.takeWhile (cmp v)).reverse := by
        rw [← List.reverse_append, List.takeWhile_append_dropWhile, List.reverse_reverse]
      have hT : ∀ a ∈ (l.reverse.takeWhile (cmp v)).reverse, cmp v a = true := fun a ha => List.mem_takeWhile_imp (List.mem_reverse.1 ha)
      have hD : ∀ a ∈ (l.reverse.dropWhile (cmp v)).reverse, cmp a v = true := by
        have hs' : (l.reverse.dropWhile (cmp v)).Pairwise fun a b => cmp b a = true := by
          have := List.pairwise_reverse.2 hs
          exact this.sublist (List.dropWhile_sublist _)
        intro a ha
        rw [List.mem_reverse] at ha
        cases hdw : l.reverse.dropWhile (cmp v) with
        | nil => rw [hdw] at ha; cases ha
        | cons d ds =>
          have hnd : ¬ cmp v d = true := by
            have := List.head_dropWhile_not (cmp v) (l := l.reverse) (by rw [hdw]; simp)
            simp only [hdw, List.head_cons] at this
            simp [this]
          have hmem : d ∈ l := by
            have : d ∈ l.reverse.dropWhile (cmp v) := by rw [hdw]; simp
            exact List.mem_reverse.1 ((List.dropWhile_sublist _).subset this)
          have hdv := (htot d hmem).resolve_left hnd
          rw [hdw] at ha hs'
          rcases List.mem_cons.1 ha with rfl | ha
          · exact hdv
          · exact htr _ _ _ ((List.pairwise_cons.1 hs').1 a ha) hdv
      rw [hdec] at hs
      obtain ⟨p1, p2, p3⟩ := List.pairwise_append.1 hs
      rw [List.append_assoc, List.pairwise_append]
      refine ⟨p1, ?_, ?_⟩
      · rw [List.singleton_append, List.pairwise_cons]
        exact ⟨hT, p2⟩
      · intro a ha b hb
        rw [List.singleton_append] at hb
        rcases List.mem_cons.1 hb with rfl | hb
        · exact hD a ha
        · exact p3 a ha b hb

theorem stlSort_sorted {α : Type} (cmp : α → α → Bool) (l : List α) (htr : ∀ a b c, cmp a b = true → cmp b c = true → cmp a c = true)
    (htot : ∀ a ∈ l, ∀ b ∈ l, cmp a b = true ∨ cmp b a = true) : (stlSort cmp l).Pairwise fun a b => cmp a b = true := by
  unfold stlSort
  suffices h : ∀ t acc : List α, (∀ a ∈ acc ++ t, ∀ b ∈ acc ++ t, cmp a b = true ∨ cmp b a = true) → acc.Pairwise (fun a b => cmp a b = true) →
      (t.foldl (stlInsert cmp) acc).Pairwise fun a b => cmp a b = true by
    exact h l [] (by simpa using htot) List.Pairwise.nil
  intro t
  induction t with
  | nil => intro acc _ h; exact h
  | cons a t ih =>
    intro acc ht hs
    rw [List.foldl_cons]
    apply ih
    · intro x hx y hy
      have hsub : ∀ z, z ∈ stlInsert cmp acc a ++ t → z ∈ acc ++ a :: t := by
        intro z hz
        rcases List.mem_append.1 hz with hz | hz
        · have := (stlInsert_perm cmp acc a).mem_iff.1 hz
          rcases List.mem_cons.1 this with rfl | h
          · simp
          · simp [h]
        · simp [hz]
      exact ht x (hsub x hx) y (hsub y hy)
    · refine stlInsert_sorted cmp acc a htr (fun b hb => ?_) hs
      exact ht a (by simp) b (by simp [hb])

section
variable {K : Type} [Field K] [LinearOrder K] [IsStrictOrderedRing K]

omit [IsStrictOrderedRing K] in
theorem nbCmp_trans (a b c : GradNb K) (h1 : nbCmp a b = true) (h2 : nbCmp b c = true) : nbCmp a c = true := by
  unfold nbCmp at *
  rw [decide_eq_true_eq] at *
  exact ⟨h2.1.trans h1.1, h2.2.trans h1.2⟩

/-- Specification: of two neighbours the one behind the wider open face has at least the volume of the other. -/
def Consistent (g : EbGeom K) (i j : ℤ) : Prop := ∀ a ∈ gradNbs g i j, ∀ b ∈ gradNbs g i j, b.beta < a.beta → b.alpha ≤ a.alpha

/-- Specification: the cell has an open face towards each of two neighbours in different directions. -/
def TwoOpen (g : EbGeom K) (i j : ℤ) : Prop := (0 < g.faceX i j ∨ 0 < g.faceX (i + 1) j) ∧ (0 < g.faceY i j ∨ 0 < g.faceY i (j + 1))

omit [IsStrictOrderedRing K] in
/-- C106 (partial: geometries whose volumes are ordered like the faces): if a cell has open faces in both directions, no assertion fails, every neighbour behind an open face is used, and no neighbour behind a closed face. -/
theorem grad_stencil_open_partial (g : EbGeom K) (i j : ℤ) (hcons : Consistent g i j) (hopen : TwoOpen g i j) :
    ∃ cells, gradStencil g i j = some cells ∧ ∀ n ∈ gradNbs g i j, n.idx ∈ cells ↔ 0 < n.beta := by
  have htot : ∀ a ∈ gradNbs g i j, ∀ b ∈ gradNbs g i j, nbCmp a b = true ∨ nbCmp b a = true := by
    intro a ha b hb
    unfold nbCmp
    rw [decide_eq_true_eq, decide_eq_true_eq]
    rcases lt_trichotomy a.beta b.beta with h | h | h
    · right; exact ⟨h.le, hcons b hb a ha h⟩
    · rcases le_total a.alpha b.alpha with h' | h'
      · right; exact ⟨h.le, h'⟩
      · left; exact ⟨h.ge, h'⟩
    · left; exact ⟨h.le, hcons a ha b hb h⟩
  have hsort := stlSort_sorted nbCmp (gradNbs g i j) nbCmp_trans htot
  have hperm := stlSort_perm nbCmp (gradNbs g i j)
  have hidx : ((stlSort nbCmp (gradNbs g i j)).map GradNb.idx).Nodup := by
    have : ((gradNbs g i j).map GradNb.idx).Nodup := by
      unfold gradNbs
      simp
      omega
    exact (hperm.map _).nodup_iff.2 this
  -- two open neighbours of different directions
  have hx : ∃ n ∈ gradNbs g i j, n.dirX = true ∧ 0 < n.beta := by
    unfold gradNbs
    rcases hopen.1 with h | h
    · exact ⟨⟨g.faceX i j, g.vol (i - 1) j, true, (i - 1, j)⟩, by simp, rfl, h⟩
    · exact ⟨⟨g.faceX (i + 1) j, g.vol (i + 1) j, true, (i + 1, j)⟩, by simp, rfl, h⟩
  have hy : ∃ n ∈ gradNbs g i j, n.dirX = false ∧ 0 < n.beta := by
    unfold gradNbs
    rcases hopen.2 with h | h
    · exact ⟨⟨g.faceY i j, g.vol i (j - 1), false, (i, j - 1)⟩, by simp, rfl, h⟩
    · exact ⟨⟨g.faceY i (j + 1), g.vol i (j + 1), false, (i, j + 1)⟩, by simp, rfl, h⟩
  -- a neighbour is determined by its direction and is next to the cell
  have hnext : ∀ n ∈ gradNbs g i j, (n.dirX = true → n.idx.2 = j ∧ n.idx.1 ≠ i) ∧ (n.dirX = false → n.idx.1 = i ∧ n.idx.2 ≠ j) := by
    intro n hn
    unfold gradNbs at hn
    simp only [List.mem_cons, List.not_mem_nil, or_false] at hn
    rcases hn with rfl | rfl | rfl | rfl <;> simp
  have hlen : (stlSort nbCmp (gradNbs g i j)).length = 4 := by rw [hperm.length_eq]; rfl
  have hmem : ∀ n, n ∈ gradNbs g i j ↔ n ∈ stlSort nbCmp (gradNbs g i j) := fun n => hperm.mem_iff.symm
  unfold gradStencil
  generalize stlSort nbCmp (gradNbs g i j) = l at *
  match l, hlen with
  | [a, b, c, d], _ =>
    simp only [List.pairwise_cons, List.mem_cons, List.not_mem_nil, or_false, false_imp_iff, implies_true, List.Pairwise.nil, and_true] at hsort
    have cb : ∀ p q : GradNb K, nbCmp p q = true → q.beta ≤ p.beta := by
      intro p q h
      unfold nbCmp at h
      rw [decide_eq_true_eq] at h
      exact h.1
    have hab := cb _ _ (hsort.1 b (Or.inl rfl))
    have hbc := cb _ _ (hsort.2.1 c (Or.inl rfl))
    have hcd := cb _ _ (hsort.2.2 d rfl)
    simp only [List.map_cons, List.map_nil, List.nodup_cons, List.mem_cons, List.not_mem_nil, or_false, not_or, not_false_eq_true, List.nodup_nil, and_true] at hidx
    obtain ⟨⟨iab, iac, iad⟩, ⟨ibc, ibd⟩, icd⟩ := hidx
    simp only [hmem, List.mem_cons, List.not_mem_nil, or_false] at hx hy hnext ⊢
    have hb0 : 0 < b.beta := by
      by_contra hb
      obtain ⟨n, hn, hnd, hnb⟩ := hx
      obtain ⟨n', hn', hnd', hnb'⟩ := hy
      have e : n = a := by
        rcases hn with h | h | h | h
        · exact h
        · rw [h] at hnb; exact absurd hnb hb
        · rw [h] at hnb; exact absurd (hnb.trans_le hbc) hb
        · rw [h] at hnb; exact absurd (hnb.trans_le (hcd.trans hbc)) hb
      have e' : n' = a := by
        rcases hn' with h | h | h | h
        · exact h
        · rw [h] at hnb'; exact absurd hnb' hb
        · rw [h] at hnb'; exact absurd (hnb'.trans_le hbc) hb
        · rw [h] at hnb'; exact absurd (hnb'.trans_le (hcd.trans hbc)) hb
      rw [e] at hnd
      rw [e', hnd] at hnd'
      cases hnd'
    have ha0 : 0 < a.beta := hb0.trans_le hab
    by_cases hc0 : c.beta ≤ 0
    · rw [if_pos hc0]
      have hdir : a.dirX ≠ b.dirX := by
        intro hd
        obtain ⟨n, hn, hnd, hnb⟩ := hx
        obtain ⟨n', hn', hnd', hnb'⟩ := hy
        have e : n = a ∨ n = b := by
          rcases hn with h | h | h | h
          · exact Or.inl h
          · exact Or.inr h
          · rw [h] at hnb; exact absurd hnb (not_lt.2 hc0)
          · rw [h] at hnb; exact absurd hnb (not_lt.2 (hcd.trans hc0))
        have e' : n' = a ∨ n' = b := by
          rcases hn' with h | h | h | h
          · exact Or.inl h
          · exact Or.inr h
          · rw [h] at hnb'; exact absurd hnb' (not_lt.2 hc0)
          · rw [h] at hnb'; exact absurd hnb' (not_lt.2 (hcd.trans hc0))
        have f : a.dirX = true := by rcases e with rfl | rfl <;> simp_all
        have f' : a.dirX = false := by rcases e' with rfl | rfl <;> simp_all
        rw [f] at f'; cases f'
      rw [if_pos ⟨ha0, hb0, hdir⟩]
      refine ⟨_, rfl, ?_⟩
      have hd0 := hcd.trans hc0
      have hna := hnext a (Or.inl rfl)
      have hnb := hnext b (Or.inr (Or.inl rfl))
      have hnc := hnext c (Or.inr (Or.inr (Or.inl rfl)))
      have hnd := hnext d (Or.inr (Or.inr (Or.inr rfl)))
      have hcorner : ∀ n : GradNb K, ((n.dirX = true → n.idx.2 = j ∧ n.idx.1 ≠ i) ∧ (n.dirX = false → n.idx.1 = i ∧ n.idx.2 ≠ j)) →
          n.idx ≠ (if a.dirX = true then (a.idx.1, b.idx.2) else (b.idx.1, a.idx.2)) := by
        intro n hn he
        cases hA : a.dirX with
        | true =>
          have hB : b.dirX = false := by
            cases hB : b.dirX with
            | true => exact absurd (hA.trans hB.symm) hdir
            | false => rfl
          rw [hA, if_pos rfl] at he
          cases hN : n.dirX with
          | true => exact (hnb.2 hB).2 (by rw [← (hn.1 hN).1, he])
          | false => exact (hna.1 hA).2 (by rw [← (hn.2 hN).1, he])
        | false =>
          have hB : b.dirX = true := by
            cases hB : b.dirX with
            | true => rfl
            | false => exact absurd (hA.trans hB.symm) hdir
          rw [hA, if_neg (by simp)] at he
          cases hN : n.dirX with
          | true => exact (hna.2 hA).2 (by rw [← (hn.1 hN).1, he])
          | false => exact (hnb.1 hB).2 (by rw [← (hn.2 hN).1, he])
      intro n hn
      have hnc' := hcorner n (hnext n hn)
      simp only [List.mem_cons, List.not_mem_nil, hnc', or_false]
      rcases hn with rfl | rfl | rfl | rfl
      · exact ⟨fun _ => ha0, fun _ => Or.inl rfl⟩
      · exact ⟨fun _ => hb0, fun _ => Or.inr rfl⟩
      · exact ⟨fun h => by rcases h with h | h
                           · exact absurd h.symm iac
                           · exact absurd h.symm ibc, fun h => absurd h (not_lt.2 hc0)⟩
      · exact ⟨fun h => by rcases h with h | h
                           · exact absurd h.symm iad
                           · exact absurd h.symm ibd, fun h => absurd h (not_lt.2 hd0)⟩
    · rw [if_neg hc0]
      have hc0' := not_le.1 hc0
      by_cases hd0 : d.beta > 0
      · rw [if_pos hd0, if_pos ⟨ha0, hb0⟩]
        refine ⟨_, rfl, fun n hn => ?_⟩
        rcases hn with rfl | rfl | rfl | rfl
        · simp [ha0]
        · simp [hb0]
        · simp [hc0']
        · simp [hd0]
      · rw [if_neg hd0, if_pos ⟨ha0, hb0⟩]
        refine ⟨_, rfl, fun n hn => ?_⟩
        rcases hn with rfl | rfl | rfl | rfl
        · simp [ha0]
        · simp [hb0]
        · simp [hc0']
        · have h1 : ¬ n.idx = a.idx := fun h => iad h.symm
          have h2 : ¬ n.idx = b.idx := fun h => ibd h.symm
          have h3 : ¬ n.idx = c.idx := fun h => icd h.symm
          simp only [List.mem_cons, List.not_mem_nil, h1, h2, h3, or_self, false_iff]
          exact hd0

end

/-- A wall below a cell: three open faces. -/
example : Consistent flatWall 0 0 ∧ TwoOpen flatWall 0 0 ∧ gradStencil flatWall 0 0 = some [(0, 1), (1, 0), (-1, 0)] := by
  unfold Consistent TwoOpen
  decide +kernel

example : cutGradient flatWall (1, 1) (fun k l => 1 + 2 * (absCentroid flatWall (1, 1) k l).1 - 3 * (absCentroid flatWall (1, 1) k l).2) 0 0 = some (2, -3) := by
  decide +kernel

/-- A channel one cell wide along the first axis. -/
def channelGeom : EbGeom ℚ :=
  ⟨fun _ j => if j = 0 then 1 else 0, fun _ _ => (0, 0), fun _ _ => (0, 0), fun _ _ => (0, 0), fun _ j => if j = 0 then 1 else 0, fun _ _ => 0⟩

/-- Disagreement (C106): in a channel one cell wide the only open faces are opposite ones and an assertion fails. -/
theorem grad_channel_fails : 0 < channelGeom.faceX 0 0 ∧ 0 < channelGeom.faceX 1 0 ∧ gradStencil channelGeom 0 0 = none := by
  decide +kernel

/-- A cell with three open faces towards small cells, and a closed face (a thin wall) towards a full cell. -/
def thinWallGeom : EbGeom ℚ :=
  ⟨fun i j => if i = -1 ∧ j = 0 then 1 else 1 / 5, fun _ _ => (0, 0), fun _ _ => (0, 0), fun _ _ => (0, 0), fun i j => if i = 1 ∧ j = 0 then 1 / 2 else 0, fun _ _ => 1 / 2⟩

/-- Disagreement (C106): the comparison used for sorting is not a strict weak order (an element compares before itself), which `std::sort` requires; and with a closed face towards a cell larger than the other neighbours, the neighbour behind the closed face comes first and an assertion fails although the cell has open faces in both directions. -/
theorem grad_sort_not_an_order :
    (∀ n : GradNb ℚ, nbCmp n n = true) ∧ TwoOpen thinWallGeom 0 0 ∧
    (stlSort nbCmp (gradNbs thinWallGeom 0 0)).map GradNb.beta = [0, 1 / 2, 1 / 2, 1 / 2] ∧ gradStencil thinWallGeom 0 0 = none := by
  refine ⟨fun n => by unfold nbCmp; simp, ?_⟩
  unfold TwoOpen
  decide +kernel

end Fub
