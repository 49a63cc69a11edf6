import Verif.Spec.Boundary
import Verif.Props.IndexBox
import Verif.Props.GasHll

/-!
# C37, C38, C39: ghost cells of reflective, transmissive and constant boundaries, and boundary sets
-/

namespace Fub
variable {n : Nat} {α : Type*}

theorem boxMeets_iff (a b : IndexBox n) : boxMeets a b = true ↔ ∀ d, max (a.lower d) (b.lower d) < min (a.upper d) (b.upper d) := by
  simp [boxMeets]

theorem mem_forEachIndex (b : IndexBox n) (i : Index n) : i ∈ forEachIndex b ↔ i ∈ b.toSet := (forEachIndex_spec b).1 i

/-- The box `b1` with the range of `b2` in the directions `pre`. -/
def restrictBox (b1 b2 : IndexBox n) (pre : Fin n → Prop) [DecidablePred pre] : IndexBox n :=
  ⟨fun j => if pre j then b2.lower j else b1.lower j, fun j => if pre j then b2.upper j else b1.upper j⟩

/-- Boxes cut off in other directions than `dir` never reach the domain by a shift in direction `dir`. -/
theorem boxDiffLoop_other (dom b2 : IndexBox n) (hb : ∀ d, b2.lower d ≤ dom.lower d ∧ dom.upper d ≤ b2.upper d) (dir : Fin n) (s : Int) :
    ∀ (dims : List (Fin n)) (b1 : IndexBox n), dir ∉ dims → ∀ b ∈ boxDiffLoop b2 dims b1, boxMeets dom (boxShift b dir s) = false := by
  intro dims
  induction dims with
  | nil => intro b1 _ b hb; simp [boxDiffLoop] at hb
  | cons i is ih =>
    intro b1 hd b hmem
    have hi : i ≠ dir := fun h => hd (by simp [h])
    have his : dir ∉ is := fun h => hd (by simp [h])
    simp only [boxDiffLoop, List.mem_append] at hmem
    rcases hmem with h | h | h
    · split_ifs at h with hc
      · simp only [List.mem_singleton] at h
        subst h
        rw [Bool.eq_false_iff]
        intro hm
        have := (boxMeets_iff _ _).1 hm i
        simp only [boxShift, Function.update_of_ne hi, Function.update_self] at this
        have := hb i
        omega
      · simp at h
    · generalize hb1 : (if b1.lower i < b2.lower i ∧ b2.lower i < b1.upper i then (⟨Function.update b1.lower i (b2.lower i), b1.upper⟩ : IndexBox n) else b1) = c at h
      split_ifs at h with hc
      · simp only [List.mem_singleton] at h
        subst h
        rw [Bool.eq_false_iff]
        intro hm
        have := (boxMeets_iff _ _).1 hm i
        simp only [boxShift, Function.update_of_ne hi, Function.update_self] at this
        have := hb i
        omega
      · simp at h
    · exact ih _ his b h

/-- The box that goes on after direction `i` has been treated. -/
theorem boxDiff_step (b1 b2 : IndexBox n) (i : Fin n) (h : b1.lower i ≤ b2.lower i ∧ b2.lower i < b2.upper i ∧ b2.upper i ≤ b1.upper i) :
    (let c : IndexBox n := if b1.lower i < b2.lower i ∧ b2.lower i < b1.upper i then ⟨Function.update b1.lower i (b2.lower i), b1.upper⟩ else b1
     if c.lower i < b2.upper i ∧ b2.upper i < c.upper i then (⟨c.lower, Function.update c.upper i (b2.upper i)⟩ : IndexBox n) else c)
      = restrictBox b1 b2 (· = i) := by
  have hc : (if b1.lower i < b2.lower i ∧ b2.lower i < b1.upper i then (⟨Function.update b1.lower i (b2.lower i), b1.upper⟩ : IndexBox n) else b1)
      = ⟨Function.update b1.lower i (b2.lower i), b1.upper⟩ := by
    split_ifs with hc
    · rfl
    · have : b1.lower i = b2.lower i := by omega
      rw [← this, Function.update_eq_self]
  simp only [hc]
  have h2 : ∀ (l : Index n), (if l i < b2.upper i ∧ b2.upper i < b1.upper i then (⟨l, Function.update b1.upper i (b2.upper i)⟩ : IndexBox n) else ⟨l, b1.upper⟩)
      = ⟨l, if l i < b2.upper i then Function.update b1.upper i (b2.upper i) else b1.upper⟩ := by
    intro l
    by_cases h1 : l i < b2.upper i
    · by_cases h3 : b2.upper i < b1.upper i
      · simp [h1, h3]
      · have : b1.upper i = b2.upper i := by omega
        simp only [h1, h3, and_false, if_false, if_true]
        rw [← this, Function.update_eq_self]
    · simp [h1]
  rw [h2]
  simp only [Function.update_self, h.2.1, if_true, restrictBox]
  ext j
  · by_cases hj : j = i
    · subst hj; simp
    · simp [hj]
  · by_cases hj : j = i
    · subst hj; simp
    · simp [hj]

/-- The slab below (`side = 0`) or above (`side = 1`) the domain in direction `dir`. -/
def slabBox (b dom : IndexBox n) (dir : Fin n) (side : Int) : IndexBox n :=
  if side = 0 then ⟨b.lower, Function.update b.upper dir (dom.lower dir)⟩ else ⟨Function.update b.lower dir (dom.upper dir), b.upper⟩

theorem mem_sideBoxes (dom b2 : IndexBox n) (dir : Fin n) (side g : Int) (hside : side = 0 ∨ side = 1) (hg : 0 ≤ g)
    (hne : ∀ d, dom.lower d < dom.upper d) (hb : ∀ d, b2.lower d ≤ dom.lower d ∧ dom.upper d ≤ b2.upper d)
    (hdir : b2.lower dir = dom.lower dir ∧ b2.upper dir = dom.upper dir) :
    ∀ (pre post : List (Fin n)) (b1 : IndexBox n), (pre ++ dir :: post).Nodup → (∀ d, b1.lower d ≤ b2.lower d ∧ b2.upper d ≤ b1.upper d) →
      ((b1.lower dir = dom.lower dir - g ∧ b1.upper dir = dom.upper dir + g) ∨ (b1.lower dir = dom.lower dir ∧ b1.upper dir = dom.upper dir)) →
      ∀ b, b ∈ sideBoxes (boxDiffLoop b2 (pre ++ dir :: post) b1) dom dir side g ↔
        ((if side = 0 then b1.lower dir < dom.lower dir else dom.upper dir < b1.upper dir) ∧
          b = slabBox (restrictBox b1 b2 (· ∈ pre)) dom dir side) := by
  intro pre
  induction pre with
  | nil =>
    intro post b1 hnd hb1 hgr b
    have hpost : dir ∉ post := (List.nodup_cons.1 hnd).1
    have hother := boxDiffLoop_other dom b2 hb dir (getSign side * g) post
    have hr : restrictBox b1 b2 (· ∈ ([] : List (Fin n))) = b1 := by simp [restrictBox]
    simp only [List.nil_append, sideBoxes, List.mem_filter, boxDiffLoop, List.mem_append]
    rw [hr]
    set c : IndexBox n := if b1.lower dir < b2.lower dir ∧ b2.lower dir < b1.upper dir then ⟨Function.update b1.lower dir (b2.lower dir), b1.upper⟩ else b1 with hc
    have hcl : c.lower = Function.update b1.lower dir (b2.lower dir) := by
      rw [hc]; split_ifs with h
      · rfl
      · have := hb1 dir; have := hne dir; have := hb dir
        have : b1.lower dir = b2.lower dir := by omega
        rw [← this, Function.update_eq_self]
    have hcu : c.upper = b1.upper := by rw [hc]; split_ifs <;> rfl
    constructor
    · rintro ⟨h | h | h, hm⟩
      · split_ifs at h with hcut
        · simp only [List.mem_singleton] at h
          subst h
          rcases hside with rfl | rfl
          · exact ⟨by simp only [if_true]; omega, by simp [slabBox, hdir.1]⟩
          · exfalso
            have := (boxMeets_iff _ _).1 hm dir
            simp only [boxShift, Function.update_self, getSign] at this
            norm_num at this
            have := hb1 dir; have := hne dir
            omega
        · simp at h
      · split_ifs at h with hcut
        · simp only [List.mem_singleton] at h
          subst h
          rcases hside with rfl | rfl
          · exfalso
            have := (boxMeets_iff _ _).1 hm dir
            simp only [boxShift, Function.update_self, getSign] at this
            norm_num at this
            have := hb1 dir; have := hne dir
            omega
          · refine ⟨?_, ?_⟩
            · rw [hcu] at hcut; norm_num; omega
            · simp [slabBox, hcu, hcl, hdir.2]
        · simp at h
      · rw [hother _ hpost b h] at hm
        simp at hm
    · rintro ⟨h1, rfl⟩
      have hmeet : ∀ d, d ≠ dir → max (dom.lower d) (b1.lower d) < min (dom.upper d) (b1.upper d) := by
        intro d _
        have := hb1 d; have := hne d; have := hb d
        omega
      rcases hside with rfl | rfl
      · simp only [if_true] at h1
        have hcut : b1.lower dir < b2.lower dir ∧ b2.lower dir < b1.upper dir := by
          have := hb1 dir; have := hne dir; have := hb dir; omega
        refine ⟨Or.inl ?_, ?_⟩
        · rw [if_pos hcut]; simp [slabBox, hdir.1]
        · rw [boxMeets_iff]
          intro d
          by_cases hd : d = dir
          · subst hd
            simp only [slabBox, if_true, boxShift, Function.update_self, getSign]
            norm_num
            have := hne d
            omega
          · simp only [slabBox, if_true, boxShift, Function.update_of_ne hd]
            exact hmeet d hd
      · norm_num at h1
        have hcut : c.lower dir < b2.upper dir ∧ b2.upper dir < c.upper dir := by
          rw [hcl, hcu, Function.update_self]
          have := hb1 dir; have := hne dir; have := hb dir; omega
        refine ⟨Or.inr (Or.inl ?_), ?_⟩
        · rw [if_pos hcut]; simp [slabBox, hcu, hcl, hdir.2]
        · rw [boxMeets_iff]
          intro d
          by_cases hd : d = dir
          · subst hd
            simp only [slabBox, boxShift, getSign]
            norm_num
            have := hne d
            omega
          · simp only [slabBox, boxShift]
            norm_num [Function.update_of_ne hd]
            have := hmeet d hd
            omega
  | cons i pre ih =>
    intro post b1 hnd hb1 hgr b
    have hnd' : (pre ++ dir :: post).Nodup := (List.nodup_cons.1 hnd).2
    have hi : i ∉ pre ++ dir :: post := (List.nodup_cons.1 hnd).1
    have hidir : i ≠ dir := fun h => hi (by simp [h])
    have hipre : i ∉ pre := fun h => hi (by simp [h])
    have hstep := boxDiff_step b1 b2 i ⟨(hb1 i).1, lt_of_le_of_lt (hb i).1 (lt_of_lt_of_le (hne i) (hb i).2), (hb1 i).2⟩
    have hone := boxDiffLoop_other dom b2 hb dir (getSign side * g) [i] b1 (by simp [Ne.symm hidir])
    have hsplit : sideBoxes (boxDiffLoop b2 (i :: (pre ++ dir :: post)) b1) dom dir side g
        = sideBoxes (boxDiffLoop b2 (pre ++ dir :: post) (restrictBox b1 b2 (· = i))) dom dir side g := by
      have hap : boxDiffLoop b2 (i :: (pre ++ dir :: post)) b1
          = boxDiffLoop b2 [i] b1 ++ boxDiffLoop b2 (pre ++ dir :: post) (restrictBox b1 b2 (· = i)) := by
        rw [← hstep]
        simp only [boxDiffLoop, List.append_nil, List.append_assoc]
      rw [hap, sideBoxes, List.filter_append, List.filter_eq_nil_iff.2]
      · rfl
      · intro b hbm; rw [hone b hbm]; simp
    rw [List.cons_append, hsplit]
    have hr1 : (restrictBox b1 b2 (· = i)).lower dir = b1.lower dir := by simp [restrictBox, hidir.symm]
    have hr2 : (restrictBox b1 b2 (· = i)).upper dir = b1.upper dir := by simp [restrictBox, hidir.symm]
    rw [ih post (restrictBox b1 b2 (· = i)) hnd' ?_ ?_ b, hr1, hr2]
    · have : restrictBox (restrictBox b1 b2 (· = i)) b2 (· ∈ pre) = restrictBox b1 b2 (· ∈ i :: pre) := by
        ext j
        · simp only [restrictBox, List.mem_cons]
          by_cases h1 : j ∈ pre <;> by_cases h2 : j = i <;> simp [h1, h2]
        · simp only [restrictBox, List.mem_cons]
          by_cases h1 : j ∈ pre <;> by_cases h2 : j = i <;> simp [h1, h2]
      rw [this]
    · intro d
      simp only [restrictBox]
      by_cases h : d = i <;> simp [h, hb1]
    · rw [hr1, hr2]; exact hgr

theorem dims_split (dir : Fin n) : ∃ pre post, (List.finRange n).reverse = pre ++ dir :: post ∧ (pre ++ dir :: post).Nodup ∧ ∀ j, j ∈ pre ↔ dir < j := by
  have hm : dir ∈ (List.finRange n).reverse := by simp
  obtain ⟨pre, post, h⟩ := List.append_of_mem hm
  have hnd : (List.finRange n).reverse.Nodup := List.nodup_reverse.2 (List.nodup_finRange n)
  have hp : (List.finRange n).reverse.Pairwise (fun a b => b < a) := List.pairwise_reverse.2 (List.pairwise_lt_finRange n)
  rw [h] at hnd hp
  refine ⟨pre, post, h, hnd, fun j => ⟨fun hj => ?_, fun hj => ?_⟩⟩
  · exact (List.pairwise_append.1 hp).2.2 j hj dir (by simp)
  · have hjm : j ∈ pre ++ dir :: post := by rw [← h]; simp
    rcases List.mem_append.1 hjm with h1 | h1
    · exact h1
    · rcases List.mem_cons.1 h1 with h2 | h2
      · omega
      · have := (List.pairwise_cons.1 (List.pairwise_append.1 hp).2.1).1 j h2
        omega

/-- Copies whose sources are not among the destinations act at once on the old data. -/
theorem runCopies_spec (fab : IndexBox n) (f : α → α) (m : Index n → Index n) (S : Index n → Prop) :
    ∀ (W : List (Index n × Index n)) (data : Index n → α),
      (∀ p ∈ W, p.2 = m p.1 ∧ p.1 ∈ fab.toSet ∧ p.2 ∈ fab.toSet ∧ S p.1 ∧ (¬S p.2 ∨ ∀ a b, f a = f b)) →
      ∃ data', runCopies fab f W data = some data' ∧
        (∀ x, (∃ p ∈ W, p.1 = x) → data' x = f (data (m x))) ∧ (∀ x, (¬∃ p ∈ W, p.1 = x) → data' x = data x) := by
  intro W
  induction W with
  | nil => intro data _; exact ⟨data, rfl, by simp, by simp⟩
  | cons p ps ih =>
    intro data h
    obtain ⟨hm, h1, h2, hS, hS'⟩ := h p (by simp)
    obtain ⟨data', hr, ha, hb⟩ := ih (Function.update data p.1 (f (data p.2))) (fun q hq => h q (by simp [hq]))
    refine ⟨data', ?_, ?_, ?_⟩
    · simp [runCopies, (contains_iff fab p.1).2 h1, (contains_iff fab p.2).2 h2, hr]
    · rintro x ⟨q, hq, rfl⟩
      by_cases hps : ∃ r ∈ ps, r.1 = q.1
      · rw [ha _ hps]
        obtain ⟨r, hr, hrq⟩ := hps
        have hmr := h r (by simp [hr])
        rcases hmr.2.2.2.2 with hns | hc
        · have : m q.1 ≠ p.1 := by
            intro he
            rw [← hrq, ← hmr.1] at he
            rw [he] at hns
            exact hns hS
          rw [Function.update_of_ne this]
        · exact hc _ _
      · rw [hb _ hps]
        have hqp : q = p := by
          rcases List.mem_cons.1 hq with h' | h'
          · exact h'
          · exact absurd ⟨q, h', rfl⟩ hps
        subst hqp
        rw [Function.update_self, hm]
    · intro x hx
      have hx1 : ¬∃ r ∈ ps, r.1 = x := fun ⟨r, hr, he⟩ => hx ⟨r, by simp [hr], he⟩
      have hx2 : x ≠ p.1 := fun he => hx ⟨p, by simp, he.symm⟩
      rw [hb x hx1, Function.update_of_ne hx2]

theorem mem_ghostCopies (tiles boxes : List (IndexBox n)) (src : IndexBox n → Index n → Index n) (p : Index n × Index n) :
    p ∈ ghostCopies tiles boxes src ↔ ∃ t ∈ tiles, ∃ b ∈ boxes, p.1 ∈ t.toSet ∧ p.1 ∈ b.toSet ∧ p.2 = src (boxAnd t b) p.1 := by
  have hand : ∀ (t b : IndexBox n) (x : Index n), x ∈ (boxAnd t b).toSet ↔ x ∈ t.toSet ∧ x ∈ b.toSet := by
    intro t b x
    simp only [IndexBox.toSet, Set.mem_setOf_eq, boxAnd, max_le_iff, lt_min_iff]
    constructor
    · exact fun h => ⟨fun d => ⟨(h d).1.1, (h d).2.1⟩, fun d => ⟨(h d).1.2, (h d).2.2⟩⟩
    · exact fun h d => ⟨⟨(h.1 d).1, (h.2 d).1⟩, ⟨(h.1 d).2, (h.2 d).2⟩⟩
  simp only [ghostCopies, List.mem_flatMap, List.mem_map, mem_forEachIndex]
  constructor
  · rintro ⟨t, ht, b, hb, i, hi, rfl⟩
    exact ⟨t, ht, b, hb, ((hand t b i).1 hi).1, ((hand t b i).1 hi).2, rfl⟩
  · rintro ⟨t, ht, b, hb, h1, h2, h3⟩
    exact ⟨t, ht, b, hb, p.1, (hand t b p.1).2 ⟨h1, h2⟩, by rw [← h3]⟩

/-- The pairs of cells of the loop: each ghost cell beyond the side (in the transversal range of the boundary boxes) is a destination, and its source is
`m` of it. -/
theorem ghost_copies (g : Geom n) (ngrow : Int) (valid : IndexBox n) (p : PatchTiles n) (hp : IsPatch g ngrow valid p) (dir : Fin n) (side : Int)
    (hside : side = 0 ∨ side = 1) (b2 : IndexBox n) (hb : ∀ d, b2.lower d ≤ g.domain.lower d ∧ g.domain.upper d ≤ b2.upper d)
    (hb1 : ∀ d, (g.grown ngrow).lower d ≤ b2.lower d ∧ b2.upper d ≤ (g.grown ngrow).upper d)
    (hdir : b2.lower dir = g.domain.lower dir ∧ b2.upper dir = g.domain.upper dir)
    (src : IndexBox n → Index n → Index n) (m : Index n → Index n)
    (hsrc : ∀ t ∈ p.tiles, ∀ x ∈ p.fab.toSet, Beyond g.domain dir side x →
      ∀ box : IndexBox n, (if side = 0 then box.upper dir = g.domain.lower dir else box.lower dir = g.domain.upper dir) → src box x = m x)
    (hm : ∀ x ∈ p.fab.toSet, Beyond g.domain dir side x → m x ∈ p.fab.toSet) :
    (∀ q ∈ ghostCopies p.tiles (sideBoxes (boxDiff (g.grown ngrow) b2) g.domain dir side ngrow) src,
      q.2 = m q.1 ∧ q.1 ∈ p.fab.toSet ∧ q.2 ∈ p.fab.toSet ∧ Beyond g.domain dir side q.1) ∧
    ∀ x, (∃ q ∈ ghostCopies p.tiles (sideBoxes (boxDiff (g.grown ngrow) b2) g.domain dir side ngrow) src, q.1 = x) ↔
      (x ∈ p.fab.toSet ∧ g.periodic dir = false ∧ Beyond g.domain dir side x ∧
          (∀ d, d ≠ dir → (dir < d → b2.lower d ≤ x d ∧ x d < b2.upper d) ∧ (d < dir → (g.grown ngrow).lower d ≤ x d ∧ x d < (g.grown ngrow).upper d))) := by
  have hne : ∀ d, g.domain.lower d < g.domain.upper d := fun d => by have := hp.inside d; omega
  have hg := hp.ngrow_nonneg
  obtain ⟨pre, post, hsplit, hnd, hpre⟩ := dims_split dir
  have hgr : ((g.grown ngrow).lower dir = g.domain.lower dir - ngrow ∧ (g.grown ngrow).upper dir = g.domain.upper dir + ngrow) ∨
      ((g.grown ngrow).lower dir = g.domain.lower dir ∧ (g.grown ngrow).upper dir = g.domain.upper dir) := by
    simp only [Geom.grown]
    cases g.periodic dir <;> simp
  have hbox := mem_sideBoxes g.domain b2 dir side ngrow hside hg hne hb hdir pre post (g.grown ngrow) hnd hb1 hgr
  rw [← hsplit] at hbox
  set slab := slabBox (restrictBox (g.grown ngrow) b2 (· ∈ pre)) g.domain dir side with hslab
  have hfab : ∀ x, x ∈ p.fab.toSet ↔ ∀ d, valid.lower d - ngrow ≤ x d ∧ x d < valid.upper d + ngrow := by
    intro x; rw [hp.fab_eq]; rfl
  -- membership in the slab
  have hmem : ∀ x, x ∈ p.fab.toSet →
      (((if side = 0 then (g.grown ngrow).lower dir < g.domain.lower dir else g.domain.upper dir < (g.grown ngrow).upper dir) ∧ x ∈ slab.toSet) ↔
        (g.periodic dir = false ∧ Beyond g.domain dir side x ∧
          (∀ d, d ≠ dir → (dir < d → b2.lower d ≤ x d ∧ x d < b2.upper d) ∧ (d < dir → (g.grown ngrow).lower d ≤ x d ∧ x d < (g.grown ngrow).upper d)))) := by
    intro x hx
    have hx' := (hfab x).1 hx
    have hcoord : ∀ d, d ≠ dir → (slab.lower d ≤ x d ∧ x d < slab.upper d ↔
        ((dir < d → b2.lower d ≤ x d ∧ x d < b2.upper d) ∧ (d < dir → (g.grown ngrow).lower d ≤ x d ∧ x d < (g.grown ngrow).upper d))) := by
      intro d hd
      have e1 : slab.lower d = if dir < d then b2.lower d else (g.grown ngrow).lower d := by
        rw [hslab]; simp only [slabBox]; split_ifs <;> simp_all [restrictBox, Function.update_of_ne hd]
      have e2 : slab.upper d = if dir < d then b2.upper d else (g.grown ngrow).upper d := by
        rw [hslab]; simp only [slabBox]; split_ifs <;> simp_all [restrictBox, Function.update_of_ne hd]
      rw [e1, e2]
      rcases lt_or_gt_of_ne hd with h | h
      · simp [h, not_lt.2 h.le]
      · simp [h, not_lt.2 h.le]
    have hpd : dir ∉ pre := fun h => lt_irrefl _ ((hpre dir).1 h)
    have hv := hp.inside dir
    constructor
    · rintro ⟨h1, h2⟩
      refine ⟨?_, ?_, fun d hd => (hcoord d hd).1 (h2 d)⟩
      · by_contra hper
        have hper : g.periodic dir = true := by simpa using hper
        simp only [Geom.grown, hper, if_true] at h1
        split_ifs at h1 <;> omega
      · have := h2 dir
        rcases hside with rfl | rfl
        · exact Or.inl ⟨rfl, by simpa [hslab, slabBox] using this.2⟩
        · exact Or.inr ⟨rfl, by simpa [hslab, slabBox] using this.1⟩
    · rintro ⟨hper, hbey, h3⟩
      refine ⟨?_, fun d => ?_⟩
      · simp only [Geom.grown, hper]
        have := hx' dir
        rcases hbey with ⟨rfl, h⟩ | ⟨rfl, h⟩
        · simp only [if_true, Bool.false_eq_true, if_false]; omega
        · norm_num; omega
      · by_cases hd : d = dir
        · subst hd
          have := hx' d
          rcases hbey with ⟨rfl, h⟩ | ⟨rfl, h⟩
          · simp only [hslab, slabBox, if_true, restrictBox, hpd, if_false, Geom.grown, hper, Function.update_self]
            simp only [Bool.false_eq_true, if_false]
            omega
          · have e1 : slab.lower d = g.domain.upper d := by simp [hslab, slabBox]
            have e2 : slab.upper d = g.domain.upper d + ngrow := by simp [hslab, slabBox, restrictBox, hpd, Geom.grown, hper]
            omega
        · exact (hcoord d hd).2 (h3 d hd)
  have hW : ∀ q ∈ ghostCopies p.tiles (sideBoxes (boxDiff (g.grown ngrow) b2) g.domain dir side ngrow) src,
      q.2 = m q.1 ∧ q.1 ∈ p.fab.toSet ∧ q.2 ∈ p.fab.toSet ∧ Beyond g.domain dir side q.1 := by
    intro q hq
    obtain ⟨t, ht, b, hbm, h1, h2, h3⟩ := (mem_ghostCopies _ _ _ q).1 hq
    have hqf : q.1 ∈ p.fab.toSet := (hp.cover _).2 ⟨t, ht, h1⟩
    have hb' := (hbox b).1 hbm
    have hbs : b = slab := hb'.2
    rw [hbs] at h2 h3
    have hbey : Beyond g.domain dir side q.1 := ((hmem q.1 hqf).1 ⟨hb'.1, h2⟩).2.1
    have hq2 : q.2 = m q.1 := by
      rw [h3]
      refine hsrc t ht q.1 hqf hbey _ ?_
      have htd := hp.tile t ht dir
      rcases hside with rfl | rfl
      · simp only [if_true, boxAnd, hslab, slabBox, Function.update_self]; omega
      · norm_num [boxAnd, hslab, slabBox]; omega
    refine ⟨hq2, hqf, ?_, hbey⟩
    rw [hq2]; exact hm q.1 hqf hbey
  refine ⟨hW, fun x => ?_⟩
  constructor
  · rintro ⟨q, hq, rfl⟩
    obtain ⟨t, ht, b, hbm, h1, h2, h3⟩ := (mem_ghostCopies _ _ _ q).1 hq
    have hqf : q.1 ∈ p.fab.toSet := (hp.cover _).2 ⟨t, ht, h1⟩
    have hb' := (hbox b).1 hbm
    have hbs : b = slab := hb'.2
    rw [hbs] at h2
    exact ⟨hqf, (hmem q.1 hqf).1 ⟨hb'.1, h2⟩⟩
  · rintro ⟨hxf, h⟩
    obtain ⟨h1, h2⟩ := (hmem x hxf).2 h
    obtain ⟨t, ht, hxt⟩ := (hp.cover x).1 hxf
    exact ⟨(x, src (boxAnd t slab) x), (mem_ghostCopies _ _ _ _).2 ⟨t, ht, slab, (hbox slab).2 ⟨h1, rfl⟩, hxt, h2, rfl⟩, rfl⟩

/-- Cells of the patch beyond one side of the domain that a boundary condition with transversal range `T` fills. -/
theorem ghost_fill (g : Geom n) (ngrow : Int) (valid : IndexBox n) (p : PatchTiles n) (hp : IsPatch g ngrow valid p) (dir : Fin n) (side : Int)
    (hside : side = 0 ∨ side = 1) (b2 : IndexBox n) (hb : ∀ d, b2.lower d ≤ g.domain.lower d ∧ g.domain.upper d ≤ b2.upper d)
    (hb1 : ∀ d, (g.grown ngrow).lower d ≤ b2.lower d ∧ b2.upper d ≤ (g.grown ngrow).upper d)
    (hdir : b2.lower dir = g.domain.lower dir ∧ b2.upper dir = g.domain.upper dir)
    (f : α → α) (src : IndexBox n → Index n → Index n) (m : Index n → Index n)
    (hsrc : ∀ t ∈ p.tiles, ∀ x ∈ p.fab.toSet, Beyond g.domain dir side x →
      ∀ box : IndexBox n, (if side = 0 then box.upper dir = g.domain.lower dir else box.lower dir = g.domain.upper dir) → src box x = m x)
    (hm : ∀ x ∈ p.fab.toSet, Beyond g.domain dir side x → m x ∈ p.fab.toSet)
    (S : Index n → Prop) (hS : ∀ x ∈ p.fab.toSet, Beyond g.domain dir side x → S x ∧ (¬S (m x) ∨ ∀ a b, f a = f b)) (data : Index n → α) :
    ∃ data', runCopies p.fab f (ghostCopies p.tiles (sideBoxes (boxDiff (g.grown ngrow) b2) g.domain dir side ngrow) src) data = some data' ∧
      ∀ x, data' x =
        open Classical in if x ∈ p.fab.toSet ∧ g.periodic dir = false ∧ Beyond g.domain dir side x ∧
          (∀ d, d ≠ dir → (dir < d → b2.lower d ≤ x d ∧ x d < b2.upper d) ∧ (d < dir → (g.grown ngrow).lower d ≤ x d ∧ x d < (g.grown ngrow).upper d))
        then f (data (m x)) else data x := by
  obtain ⟨hW, hx⟩ := ghost_copies g ngrow valid p hp dir side hside b2 hb hb1 hdir src m hsrc hm
  obtain ⟨data', hr, ha, hb'⟩ := runCopies_spec p.fab f m S _ data fun q hq => by
    obtain ⟨h1, h2, h3, h4⟩ := hW q hq
    have := hS q.1 h2 h4
    exact ⟨h1, h2, h3, this.1, by rw [h1]; exact this.2⟩
  refine ⟨data', hr, fun x => ?_⟩
  have hx := hx x
  split_ifs with hc
  · exact ha x (hx.2 hc)
  · exact hb' x (fun h => hc (hx.1 h))

/-- The cell has index `x d` in the range of the domain in direction `d`. -/
theorem beyond_or (dom : IndexBox n) (d : Fin n) (x : Index n) :
    (dom.lower d ≤ x d ∧ x d < dom.upper d) ∨ Beyond dom d 0 x ∨ Beyond dom d 1 x := by
  unfold Beyond
  rcases lt_or_ge (x d) (dom.lower d) with h | h
  · exact Or.inr (Or.inl (Or.inl ⟨rfl, h⟩))
  · rcases lt_or_ge (x d) (dom.upper d) with h' | h'
    · exact Or.inl ⟨h, h'⟩
    · exact Or.inr (Or.inr (Or.inr ⟨rfl, h'⟩))

theorem grown_range (g : Geom n) (ngrow : Int) (valid : IndexBox n) (p : PatchTiles n) (hp : IsPatch g ngrow valid p) (x : Index n)
    (hx : x ∈ p.fab.toSet) (d : Fin n) :
    ((g.grown ngrow).lower d ≤ x d ∧ x d < (g.grown ngrow).upper d) ↔ ((g.domain.lower d ≤ x d ∧ x d < g.domain.upper d) ∨ g.periodic d = false) := by
  rw [hp.fab_eq] at hx
  have h1 := hx d
  have h2 := hp.inside d
  have h3 := hp.ngrow_nonneg
  simp only [Geom.grown]
  cases g.periodic d <;> simp at h1 ⊢
  omega

/-- **C37 (which cells, which values).** For every dimension, domain, patch of it, tiling, ghost width and old data, the reflective boundary touches no
cell outside of the patch, and afterwards: a ghost cell of the patch beyond the given side of a non-periodic direction holds the reflected old value
of its mirror cell (the cell at the same distance on the other side of the wall), if it lies in the domain with respect to the later directions, and in
the domain or in a non-periodic direction with respect to the earlier directions; every other cell is unchanged. In particular all cells of the domain
are unchanged. The mirror cell lies in the domain with respect to this direction if the ghost layer is not wider than the domain. -/
theorem reflective_fill (g : Geom n) (ngrow : Int) (valid : IndexBox n) (p : PatchTiles n) (hp : IsPatch g ngrow valid p) (dir : Fin n) (side : Int)
    (hside : side = 0 ∨ side = 1) (reflect : α → α) (data : Index n → α) :
    ∃ data', reflectiveFill g ngrow dir side reflect p data = some data' ∧
      (∀ x, x ∈ p.fab.toSet → g.periodic dir = false → Beyond g.domain dir side x →
        (∀ d, dir < d → g.domain.lower d ≤ x d ∧ x d < g.domain.upper d) →
        (∀ d, d < dir → (g.domain.lower d ≤ x d ∧ x d < g.domain.upper d) ∨ g.periodic d = false) →
        mirrorCell g.domain dir side x ∈ p.fab.toSet ∧ data' x = reflect (data (mirrorCell g.domain dir side x)) ∧
        (ngrow ≤ g.domain.upper dir - g.domain.lower dir →
          g.domain.lower dir ≤ mirrorCell g.domain dir side x dir ∧ mirrorCell g.domain dir side x dir < g.domain.upper dir)) ∧
      (∀ x, ¬(x ∈ p.fab.toSet ∧ g.periodic dir = false ∧ Beyond g.domain dir side x ∧
        (∀ d, dir < d → g.domain.lower d ≤ x d ∧ x d < g.domain.upper d) ∧
        (∀ d, d < dir → (g.domain.lower d ≤ x d ∧ x d < g.domain.upper d) ∨ g.periodic d = false)) → data' x = data x) := by
  have hfab : ∀ x, x ∈ p.fab.toSet ↔ ∀ d, valid.lower d - ngrow ≤ x d ∧ x d < valid.upper d + ngrow := by
    intro x; rw [hp.fab_eq]; rfl
  have hg := hp.ngrow_nonneg
  have hmir : ∀ x ∈ p.fab.toSet, Beyond g.domain dir side x → mirrorCell g.domain dir side x ∈ p.fab.toSet := by
    intro x hx hb
    rw [hfab] at hx ⊢
    intro d
    have h1 := hx d
    have h2 := hp.inside d
    simp only [mirrorCell]
    by_cases hd : d = dir
    · subst hd
      rcases hb with ⟨rfl, h⟩ | ⟨rfl, h⟩
      · simp only [if_true]; omega
      · norm_num; omega
    · simp only [hd, if_false]; exact h1
  obtain ⟨data', hr, h⟩ := ghost_fill g ngrow valid p hp dir side hside g.domain (fun d => ⟨le_refl _, le_refl _⟩)
    (fun d => by simp only [Geom.grown]; split_ifs <;> omega) ⟨rfl, rfl⟩ reflect (fun box i => reflectIndex i box dir side)
    (mirrorCell g.domain dir side) (by
      intro t _ x _ hb box hbox
      funext d
      rcases hside with rfl | rfl
      · simp only [if_true] at hbox
        by_cases hd : d = dir
        · subst hd; simp [reflectIndex, mirrorCell, hbox]; ring
        · simp [reflectIndex, mirrorCell, hd]
      · simp only [one_ne_zero, if_false] at hbox
        by_cases hd : d = dir
        · subst hd; simp [reflectIndex, mirrorCell, hbox]; ring
        · simp [reflectIndex, mirrorCell, hd])
    hmir (Beyond g.domain dir side) (by
      intro x _ hb
      refine ⟨hb, Or.inl ?_⟩
      rcases hb with ⟨rfl, h⟩ | ⟨rfl, h⟩
      · simp [Beyond, mirrorCell]; omega
      · simp [Beyond, mirrorCell]; omega) data
  have hcond : ∀ x ∈ p.fab.toSet, (∀ d, d ≠ dir → (dir < d → g.domain.lower d ≤ x d ∧ x d < g.domain.upper d) ∧
      (d < dir → (g.grown ngrow).lower d ≤ x d ∧ x d < (g.grown ngrow).upper d)) ↔
      ((∀ d, dir < d → g.domain.lower d ≤ x d ∧ x d < g.domain.upper d) ∧
        (∀ d, d < dir → (g.domain.lower d ≤ x d ∧ x d < g.domain.upper d) ∨ g.periodic d = false)) := by
    intro x hx
    constructor
    · exact fun h => ⟨fun d hd => (h d hd.ne').1 hd, fun d hd => (grown_range g ngrow valid p hp x hx d).1 ((h d hd.ne).2 hd)⟩
    · exact fun h d _ => ⟨h.1 d, fun hd => (grown_range g ngrow valid p hp x hx d).2 (h.2 d hd)⟩
  refine ⟨data', hr, fun x hx hper hb h1 h2 => ⟨hmir x hx hb, ?_, ?_⟩, fun x hx => ?_⟩
  · rw [h, if_pos ⟨hx, hper, hb, (hcond x hx).2 ⟨h1, h2⟩⟩]
  · intro hw
    have hx' := (hfab x).1 hx dir
    have h2 := hp.inside dir
    rcases hb with ⟨rfl, h⟩ | ⟨rfl, h⟩
    · simp [mirrorCell]; omega
    · simp [mirrorCell]; omega
  · rw [h, if_neg]
    rintro ⟨a, b, c, d⟩
    exact hx ⟨a, b, c, (hcond x a).1 d⟩

/-- The common part of the transmissive and the constant boundary. -/
theorem slab_fill (g : Geom n) (ngrow : Int) (valid : IndexBox n) (p : PatchTiles n) (hp : IsPatch g ngrow valid p) (dir : Fin n) (side : Int)
    (hside : side = 0 ∨ side = 1) (f : α → α) (src : IndexBox n → Index n → Index n) (m : Index n → Index n)
    (hsrc : ∀ x ∈ p.fab.toSet, Beyond g.domain dir side x → ∀ box, src box x = m x)
    (hm : ∀ x ∈ p.fab.toSet, Beyond g.domain dir side x → m x ∈ p.fab.toSet ∧ (¬Beyond g.domain dir side (m x) ∨ ∀ a b, f a = f b)) (data : Index n → α) :
    ∃ data', runCopies p.fab f (ghostCopies p.tiles (slabBoxes g ngrow dir side) src) data = some data' ∧
      (∀ x, x ∈ p.fab.toSet → g.periodic dir = false → Beyond g.domain dir side x →
        (∀ d, d ≠ dir → (g.domain.lower d ≤ x d ∧ x d < g.domain.upper d) ∨ g.periodic d = false) → data' x = f (data (m x))) ∧
      (∀ x, ¬(x ∈ p.fab.toSet ∧ g.periodic dir = false ∧ Beyond g.domain dir side x ∧
        (∀ d, d ≠ dir → (g.domain.lower d ≤ x d ∧ x d < g.domain.upper d) ∨ g.periodic d = false)) → data' x = data x) := by
  cases hper : g.periodic dir with
  | true =>
    refine ⟨data, ?_, by simp, by simp⟩
    have : ghostCopies p.tiles (slabBoxes g ngrow dir side) src = [] := by simp [ghostCopies, slabBoxes, hper]
    rw [this]; rfl
  | false =>
    have hg := hp.ngrow_nonneg
    simp only [slabBoxes, hper, Bool.false_eq_true, if_false]
    set b2 : IndexBox n := ⟨Function.update (g.grown ngrow).lower dir ((g.grown ngrow).lower dir + ngrow),
      Function.update (g.grown ngrow).upper dir ((g.grown ngrow).upper dir - ngrow)⟩ with hb2
    have e : ∀ d, d ≠ dir → b2.lower d = (g.grown ngrow).lower d ∧ b2.upper d = (g.grown ngrow).upper d := fun d hd => by simp [hb2, hd]
    have ed : b2.lower dir = g.domain.lower dir ∧ b2.upper dir = g.domain.upper dir := by simp [hb2, Geom.grown, hper]
    have eg : (g.grown ngrow).lower dir = g.domain.lower dir - ngrow ∧ (g.grown ngrow).upper dir = g.domain.upper dir + ngrow := by simp [Geom.grown, hper]
    have eg' : ∀ d, (g.grown ngrow).lower d ≤ g.domain.lower d ∧ g.domain.upper d ≤ (g.grown ngrow).upper d := fun d => by
      simp only [Geom.grown]; split_ifs <;> omega
    obtain ⟨data', hr, h⟩ := ghost_fill g ngrow valid p hp dir side hside b2
      (fun d => by by_cases hd : d = dir
                   · subst hd; omega
                   · have := e d hd; have := eg' d; omega)
      (fun d => by by_cases hd : d = dir
                   · subst hd; omega
                   · have := e d hd; omega)
      ed f src m (fun t _ x hx hb box _ => hsrc x hx hb box) (fun x hx hb => (hm x hx hb).1) (Beyond g.domain dir side)
      (fun x hx hb => ⟨hb, (hm x hx hb).2⟩) data
    have hcond : ∀ x ∈ p.fab.toSet, (∀ d, d ≠ dir → (dir < d → b2.lower d ≤ x d ∧ x d < b2.upper d) ∧
        (d < dir → (g.grown ngrow).lower d ≤ x d ∧ x d < (g.grown ngrow).upper d)) ↔
        (∀ d, d ≠ dir → (g.domain.lower d ≤ x d ∧ x d < g.domain.upper d) ∨ g.periodic d = false) := by
      intro x hx
      refine forall_congr' fun d => forall_congr' fun hd => ?_
      rw [(e d hd).1, (e d hd).2, ← grown_range g ngrow valid p hp x hx d]
      rcases lt_or_gt_of_ne hd with h | h
      · simp [h, not_lt.2 h.le]
      · simp [h, not_lt.2 h.le]
    refine ⟨data', hr, fun x hx _ hb h1 => ?_, fun x hx => ?_⟩
    · rw [h, if_pos ⟨hx, hper, hb, (hcond x hx).2 h1⟩]
    · rw [h, if_neg]
      rintro ⟨a, _, c, d⟩
      exact hx ⟨a, by trivial, c, (hcond x a).1 d⟩

/-- **C38 (transmissive).** For every dimension, domain, patch, tiling, ghost width and old data: a ghost cell of the patch beyond the given side of a
non-periodic direction takes the old value of the nearest cell of the domain in this direction with the same other indices, if each other direction is
non-periodic or has its index in the domain; every other cell is unchanged, and no cell outside of the patch is touched. -/
theorem transmissive_fill (g : Geom n) (ngrow : Int) (valid : IndexBox n) (p : PatchTiles n) (hp : IsPatch g ngrow valid p) (dir : Fin n) (side : Int)
    (hside : side = 0 ∨ side = 1) (data : Index n → α) :
    ∃ data', transmissiveFill g ngrow dir side p data = some data' ∧
      (∀ x, x ∈ p.fab.toSet → g.periodic dir = false → Beyond g.domain dir side x →
        (∀ d, d ≠ dir → (g.domain.lower d ≤ x d ∧ x d < g.domain.upper d) ∨ g.periodic d = false) →
        edgeCell g.domain dir side x ∈ p.fab.toSet ∧ data' x = data (edgeCell g.domain dir side x)) ∧
      (∀ x, ¬(x ∈ p.fab.toSet ∧ g.periodic dir = false ∧ Beyond g.domain dir side x ∧
        (∀ d, d ≠ dir → (g.domain.lower d ≤ x d ∧ x d < g.domain.upper d) ∨ g.periodic d = false)) → data' x = data x) := by
  have hg := hp.ngrow_nonneg
  have hfab : ∀ x, x ∈ p.fab.toSet ↔ ∀ d, valid.lower d - ngrow ≤ x d ∧ x d < valid.upper d + ngrow := by
    intro x; rw [hp.fab_eq]; rfl
  have hm : ∀ x ∈ p.fab.toSet, Beyond g.domain dir side x → edgeCell g.domain dir side x ∈ p.fab.toSet := by
    intro x hx hb
    rw [hfab] at hx ⊢
    intro d
    have h1 := hx d
    have h2 := hp.inside d
    simp only [edgeCell]
    by_cases hd : d = dir
    · subst hd
      rcases hb with ⟨rfl, h⟩ | ⟨rfl, h⟩
      · simp only [if_true]; omega
      · norm_num; omega
    · simp only [hd, if_false]; exact h1
  obtain ⟨data', hr, ha, hb⟩ := slab_fill g ngrow valid p hp dir side hside id (fun _ i => mapToSrc i g.domain side dir) (edgeCell g.domain dir side)
    (by
      intro x _ _ _
      funext d
      rcases hside with rfl | rfl <;> by_cases hd : d = dir
      · subst hd; simp [mapToSrc, edgeCell]
      · simp [mapToSrc, edgeCell, hd]
      · subst hd; simp [mapToSrc, edgeCell]
      · simp [mapToSrc, edgeCell, hd])
    (by
      intro x hx hb
      have h2 := hp.inside dir
      refine ⟨hm x hx hb, Or.inl ?_⟩
      rcases hside with rfl | rfl
      · simp [Beyond, edgeCell]
      · simp [Beyond, edgeCell]) data
  exact ⟨data', hr, fun x h1 h2 h3 h4 => ⟨hm x h1 h3, ha x h1 h2 h3 h4⟩, hb⟩

/-- **C38 (constant).** The constant boundary writes the configured state to exactly the same ghost cells. -/
theorem constant_fill (g : Geom n) (ngrow : Int) (valid : IndexBox n) (p : PatchTiles n) (hp : IsPatch g ngrow valid p) (dir : Fin n) (side : Int)
    (hside : side = 0 ∨ side = 1) (state : α) (data : Index n → α) :
    ∃ data', constantFill g ngrow dir side state p data = some data' ∧
      (∀ x, x ∈ p.fab.toSet → g.periodic dir = false → Beyond g.domain dir side x →
        (∀ d, d ≠ dir → (g.domain.lower d ≤ x d ∧ x d < g.domain.upper d) ∨ g.periodic d = false) → data' x = state) ∧
      (∀ x, ¬(x ∈ p.fab.toSet ∧ g.periodic dir = false ∧ Beyond g.domain dir side x ∧
        (∀ d, d ≠ dir → (g.domain.lower d ≤ x d ∧ x d < g.domain.upper d) ∨ g.periodic d = false)) → data' x = data x) :=
  slab_fill g ngrow valid p hp dir side hside (fun _ => state) (fun _ i => i) id (fun _ _ _ _ => rfl)
    (fun _ hx _ => ⟨hx, Or.inr fun _ _ => rfl⟩) data

/-! ## Boundary sets -/

/-- **C39 (order).** A boundary set with the conditions `cs ++ [c]` acts like the set `cs` followed by `c`; the empty set does nothing; a failing
condition makes the set fail. -/
theorem boundarySet_order (cs ds : List ((Index n → α) → Option (Index n → α))) (c : (Index n → α) → Option (Index n → α)) (data : Index n → α) :
    boundarySetFill [] data = some data ∧
    boundarySetFill (cs ++ ds) data = (boundarySetFill cs data).bind (boundarySetFill ds) ∧
    boundarySetFill (c :: cs) data = (c data).bind (boundarySetFill cs) := by
  refine ⟨rfl, ?_, rfl⟩
  simp only [boundarySetFill, List.foldlM_append]; rfl

/-- **C39 (transmissive sets).** For every list of transmissive conditions, in any order and with repetitions: a ghost cell of the patch whose periodic
indices lie in the domain takes the old value of the nearest cell of the domain, where "nearest" counts the sides in the list; with a condition
for every side of every non-periodic direction these are all ghost cells, also those at edges and corners. -/
theorem boundarySet_transmissive (g : Geom n) (ngrow : Int) (valid : IndexBox n) (p : PatchTiles n) (hp : IsPatch g ngrow valid p)
    (L : List (Fin n × Int)) (hL : ∀ c ∈ L, (c.2 = 0 ∨ c.2 = 1) ∧ g.periodic c.1 = false) (data : Index n → α) :
    ∃ data', boundarySetFill (L.map fun c => transmissiveFill g ngrow c.1 c.2 p) data = some data' ∧
      (∀ x ∈ p.fab.toSet, (∀ d, (g.domain.lower d ≤ x d ∧ x d < g.domain.upper d) ∨ g.periodic d = false) →
        data' x = data (nearestCell g.domain L x)) := by
  induction L using List.reverseRecOn with
  | nil =>
    refine ⟨data, rfl, fun x _ _ => ?_⟩
    have : nearestCell g.domain [] x = x := by funext d; simp [nearestCell]
    rw [this]
  | append_singleton L c ih =>
    obtain ⟨d1, hr1, h1⟩ := ih (fun c hc => hL c (by simp [hc]))
    obtain ⟨hs, hper⟩ := hL c (by simp)
    obtain ⟨d2, hr2, ha, hb⟩ := transmissive_fill g ngrow valid p hp c.1 c.2 hs d1
    have hne : g.domain.lower c.1 < g.domain.upper c.1 := by have := hp.inside c.1; omega
    refine ⟨d2, ?_, fun x hx hin => ?_⟩
    · rw [List.map_append, (boundarySet_order _ _ (fun _ => none) data).2.1, hr1]
      simp only [List.map_cons, List.map_nil, Option.bind_some]
      rw [(boundarySet_order [] [] _ d1).2.2, hr2]; rfl
    · by_cases hbey : Beyond g.domain c.1 c.2 x
      · obtain ⟨he, hv⟩ := ha x hx hper hbey (fun d _ => hin d)
        have hin' : ∀ d, (g.domain.lower d ≤ edgeCell g.domain c.1 c.2 x d ∧ edgeCell g.domain c.1 c.2 x d < g.domain.upper d) ∨ g.periodic d = false := by
          intro d
          by_cases hd : d = c.1
          · subst hd; exact Or.inr hper
          · simp only [edgeCell, hd, if_false]; exact hin d
        rw [hv, h1 _ he hin']
        congr 1
        funext d
        by_cases hd : d = c.1
        · subst hd
          rcases hbey with ⟨h0, h⟩ | ⟨h0, h⟩
          · have hc : (c.1, (0 : Int)) = c := by rw [← h0]
            simp only [nearestCell, edgeCell, h0, if_true, List.mem_append, List.mem_singleton, hc, h, or_true, and_self]
            simp only [lt_irrefl, false_and, if_false]
            rw [if_neg]; omega
          · have hc : (c.1, (1 : Int)) = c := by rw [← h0]
            have hlt : ¬x c.1 < g.domain.lower c.1 := by omega
            have hlt2 : ¬g.domain.upper c.1 - 1 < g.domain.lower c.1 := by omega
            have hlt3 : ¬g.domain.upper c.1 ≤ g.domain.upper c.1 - 1 := by omega
            simp only [nearestCell, edgeCell, h0, if_true, one_ne_zero, if_false, List.mem_append, List.mem_singleton, hc, h, or_true, and_self, hlt, hlt2,
              hlt3, false_and]
        · have h0 : ∀ s, (d, s) ∈ L ++ [c] ↔ (d, s) ∈ L := by
            intro s
            simp only [List.mem_append, List.mem_singleton, or_iff_left_iff_imp]
            intro h; rw [← h] at hd; exact absurd rfl hd
          simp only [nearestCell, edgeCell, hd, if_false, h0]
      · rw [hb x (fun h => hbey h.2.2.1), h1 x hx hin]
        congr 1
        funext d
        have e0 : (x d < g.domain.lower d ∧ (d, (0 : Int)) ∈ L ++ [c]) ↔ (x d < g.domain.lower d ∧ (d, (0 : Int)) ∈ L) := by
          simp only [List.mem_append, List.mem_singleton]
          constructor
          · rintro ⟨h, h' | h'⟩
            · exact ⟨h, h'⟩
            · rw [← h'] at hbey; exact absurd (Or.inl ⟨rfl, h⟩) hbey
          · exact fun h => ⟨h.1, Or.inl h.2⟩
        have e1 : (g.domain.upper d ≤ x d ∧ (d, (1 : Int)) ∈ L ++ [c]) ↔ (g.domain.upper d ≤ x d ∧ (d, (1 : Int)) ∈ L) := by
          simp only [List.mem_append, List.mem_singleton]
          constructor
          · rintro ⟨h, h' | h'⟩
            · exact ⟨h, h'⟩
            · rw [← h'] at hbey; exact absurd (Or.inr ⟨rfl, h⟩) hbey
          · exact fun h => ⟨h.1, Or.inl h.2⟩
        simp only [nearestCell, e0, e1]

/-- With a condition for every side the nearest cell is the cell of the domain with the clamped indices. -/
theorem nearestCell_full (dom : IndexBox n) (hd : ∀ d, dom.lower d < dom.upper d) (L : List (Fin n × Int)) (x : Index n)
    (hL : ∀ d s, Beyond dom d s x → (d, s) ∈ L) : ∀ d, nearestCell dom L x d = max (dom.lower d) (min (dom.upper d - 1) (x d)) := by
  intro d
  have h := hd d
  rcases beyond_or dom d x with h' | h' | h'
  · simp only [nearestCell]
    rw [if_neg (by omega), if_neg (by omega)]; omega
  · have hm := hL d 0 h'
    have : x d < dom.lower d := by rcases h' with h' | h' <;> simp_all
    simp only [nearestCell, hm, this, and_self, if_true]; omega
  · have hm := hL d 1 h'
    have : dom.upper d ≤ x d := by rcases h' with h' | h' <;> simp_all
    simp only [nearestCell, hm, this, and_self, if_true]
    rw [if_neg (by omega)]; omega

theorem reflectAll_split (dom : IndexBox n) (reflect : Fin n → α → α) (x y : Index n) (dir : Fin n) (a : α)
    (hx : ¬(dom.lower dir ≤ x dir ∧ x dir < dom.upper dir)) (hy : dom.lower dir ≤ y dir ∧ y dir < dom.upper dir) (hxy : ∀ d, d ≠ dir → x d = y d)
    (hlast : ∀ d, dir < d → dom.lower d ≤ x d ∧ x d < dom.upper d) : reflectAll dom reflect x a = reflect dir (reflectAll dom reflect y a) := by
  obtain ⟨pre, post, h, hnd, hpre⟩ := dims_split dir
  have hrev : List.finRange n = post.reverse ++ dir :: pre.reverse := by
    have := congrArg List.reverse h
    simpa using this
  have hpost : ∀ d ∈ post, d ≠ dir := by
    intro d hd he
    subst he
    exact (List.nodup_cons.1 (List.nodup_append.1 hnd).2.1).1 hd
  have hfp : ∀ (z : Index n) (b : α), (∀ d, dir < d → dom.lower d ≤ z d ∧ z d < dom.upper d) →
      pre.reverse.foldl (fun a d => if dom.lower d ≤ z d ∧ z d < dom.upper d then a else reflect d a) b = b := by
    intro z b hz
    have hall : ∀ d ∈ pre.reverse, dir < d := fun d hd => (hpre d).1 (by simpa using hd)
    generalize pre.reverse = l at hall
    induction l generalizing b with
    | nil => rfl
    | cons e es ih =>
      rw [List.foldl_cons, if_pos (hz e (hall e (by simp)))]
      exact ih b (fun d hd => hall d (by simp [hd]))
  have hqp : ∀ b : α, post.reverse.foldl (fun a d => if dom.lower d ≤ x d ∧ x d < dom.upper d then a else reflect d a) b =
      post.reverse.foldl (fun a d => if dom.lower d ≤ y d ∧ y d < dom.upper d then a else reflect d a) b := by
    intro b
    refine List.foldl_ext _ _ _ (fun a d hd => ?_)
    rw [hxy d (hpost d (by simpa using hd))]
  unfold reflectAll
  rw [hrev, List.foldl_append, List.foldl_append, List.foldl_cons, List.foldl_cons, if_neg hx, if_pos hy, hfp x _ hlast,
    hfp y _ (fun d hd => by rw [← hxy d hd.ne']; exact hlast d hd), hqp]

/-- **C39 (reflective sets).** For a list of reflective conditions sorted by direction, and a ghost layer not wider than the domain: every ghost
cell of the patch for which the list has a condition for each side it lies behind, also at edges and corners, takes the old value of the cell mirrored at
all these walls, reflected once for each of them. -/
theorem boundarySet_reflective (g : Geom n) (ngrow : Int) (valid : IndexBox n) (p : PatchTiles n) (hp : IsPatch g ngrow valid p)
    (hw : ∀ d, g.periodic d = false → ngrow ≤ g.domain.upper d - g.domain.lower d) (reflect : Fin n → α → α)
    (L : List (Fin n × Int)) (hL : ∀ c ∈ L, (c.2 = 0 ∨ c.2 = 1) ∧ g.periodic c.1 = false) (hsort : L.Pairwise (fun a b => a.1 ≤ b.1)) (data : Index n → α) :
    ∃ data', boundarySetFill (L.map fun c => reflectiveFill g ngrow c.1 c.2 (reflect c.1) p) data = some data' ∧
      (∀ x ∈ p.fab.toSet, (∀ d s, Beyond g.domain d s x → (d, s) ∈ L) →
        data' x = reflectAll g.domain reflect x (data (mirrorAll g.domain x))) := by
  have hid : ∀ x : Index n, (∀ d, g.domain.lower d ≤ x d ∧ x d < g.domain.upper d) →
      ∀ a, reflectAll g.domain reflect x a = a ∧ mirrorAll g.domain x = x := by
    intro x hx a
    constructor
    · unfold reflectAll
      generalize List.finRange n = l
      induction l generalizing a with
      | nil => rfl
      | cons e es ih => rw [List.foldl_cons, if_pos (hx e)]; exact ih a
    · funext d
      have := hx d
      simp only [mirrorAll]
      rw [if_neg (by omega), if_neg (by omega)]
  induction L using List.reverseRecOn with
  | nil =>
    refine ⟨data, rfl, fun x _ h => ?_⟩
    have hx : ∀ d, g.domain.lower d ≤ x d ∧ x d < g.domain.upper d := by
      intro d
      rcases beyond_or g.domain d x with h' | h' | h'
      · exact h'
      · simpa using h d 0 h'
      · simpa using h d 1 h'
    rw [(hid x hx _).1, (hid x hx (data x)).2]
  | append_singleton L c ih =>
    obtain ⟨d1, hr1, h1⟩ := ih (fun c hc => hL c (by simp [hc])) (List.pairwise_append.1 hsort).1
    obtain ⟨hs, hper⟩ := hL c (by simp)
    obtain ⟨d2, hr2, ha, hb⟩ := reflective_fill g ngrow valid p hp c.1 c.2 hs (reflect c.1) d1
    have hle : ∀ b ∈ L ++ [c], b.1 ≤ c.1 := by
      intro b hb
      rcases List.mem_append.1 hb with h | h
      · exact (List.pairwise_append.1 hsort).2.2 b h c (by simp)
      · rw [List.mem_singleton.1 h]
    refine ⟨d2, ?_, fun x hx hin => ?_⟩
    · rw [List.map_append, (boundarySet_order _ _ (fun _ => none) data).2.1, hr1]
      simp only [List.map_cons, List.map_nil, Option.bind_some]
      rw [(boundarySet_order [] [] _ d1).2.2, hr2]; rfl
    · have hlast : ∀ d, c.1 < d → g.domain.lower d ≤ x d ∧ x d < g.domain.upper d := by
        intro d hd
        rcases beyond_or g.domain d x with h' | h' | h'
        · exact h'
        · exact absurd (hle _ (hin d 0 h')) (not_le.2 hd)
        · exact absurd (hle _ (hin d 1 h')) (not_le.2 hd)
      by_cases hbey : Beyond g.domain c.1 c.2 x
      · have hfirst : ∀ d, d < c.1 → (g.domain.lower d ≤ x d ∧ x d < g.domain.upper d) ∨ g.periodic d = false := by
          intro d _
          rcases beyond_or g.domain d x with h' | h' | h'
          · exact Or.inl h'
          · exact Or.inr (hL _ (hin d 0 h')).2
          · exact Or.inr (hL _ (hin d 1 h')).2
        obtain ⟨hm, hv, hdom⟩ := ha x hx hper hbey hlast hfirst
        have hdom := hdom (hw c.1 hper)
        have hsame : ∀ d, d ≠ c.1 → mirrorCell g.domain c.1 c.2 x d = x d := fun d hd => by simp [mirrorCell, hd]
        rw [hv, h1 _ hm]
        · have hxo : ¬(g.domain.lower c.1 ≤ x c.1 ∧ x c.1 < g.domain.upper c.1) := by
            rcases hbey with ⟨_, h⟩ | ⟨_, h⟩ <;> omega
          rw [reflectAll_split g.domain reflect x (mirrorCell g.domain c.1 c.2 x) c.1 _ hxo hdom (fun d hd => (hsame d hd).symm) hlast]
          congr 3
          funext d
          by_cases hd : d = c.1
          · subst hd
            have e : mirrorAll g.domain (mirrorCell g.domain c.1 c.2 x) c.1 = mirrorCell g.domain c.1 c.2 x c.1 := by
              simp only [mirrorAll]; rw [if_neg (by omega), if_neg (by omega)]
            rw [e]
            have := hp.inside c.1
            rcases hbey with ⟨h0, h⟩ | ⟨h0, h⟩
            · simp only [mirrorCell, mirrorAll, h0, if_true, h]
            · simp only [mirrorCell, mirrorAll, h0, if_true, h, one_ne_zero, if_false]
              rw [if_neg (by omega)]
          · simp only [mirrorAll, hsame d hd]
        · intro d s hds
          have hd : d ≠ c.1 := by
            rintro rfl
            rcases hds with ⟨_, h⟩ | ⟨_, h⟩ <;> omega
          have hds' : Beyond g.domain d s x := by simpa only [Beyond, hsame d hd] using hds
          rcases List.mem_append.1 (hin d s hds') with h | h
          · exact h
          · have := List.mem_singleton.1 h
            rw [← this] at hd; exact absurd rfl hd
      · rw [hb x (fun h => hbey h.2.2.1)]
        refine h1 x hx (fun d s hds => ?_)
        rcases List.mem_append.1 (hin d s hds) with h | h
        · exact h
        · have := List.mem_singleton.1 h
          rw [← this] at hbey; exact absurd hds hbey

/-- **C39 (the order matters).** If the reflective conditions of two directions are applied in the opposite order, a corner cell does not hold the image of
a cell of the domain: it holds the image of what the neighbouring ghost cell contained before. -/
theorem boundarySet_reflective_wrong_order (g : Geom 2) (ngrow : Int) (valid : IndexBox 2) (p : PatchTiles 2) (hp : IsPatch g ngrow valid p)
    (hper : ∀ d, g.periodic d = false) (reflect : Fin 2 → α → α) (s0 s1 : Int) (h0 : s0 = 0 ∨ s0 = 1) (h1 : s1 = 0 ∨ s1 = 1) (data : Index 2 → α) (x : Index 2)
    (hx : x ∈ p.fab.toSet) (hb0 : Beyond g.domain 0 s0 x) (hb1 : Beyond g.domain 1 s1 x) :
    ∃ data', boundarySetFill [reflectiveFill g ngrow 1 s1 (reflect 1) p, reflectiveFill g ngrow 0 s0 (reflect 0) p] data = some data' ∧
      data' x = reflect 1 (data (mirrorCell g.domain 1 s1 x)) ∧ Beyond g.domain 0 s0 (mirrorCell g.domain 1 s1 x) := by
  obtain ⟨d1, hr1, ha1, hn1⟩ := reflective_fill g ngrow valid p hp 1 s1 h1 (reflect 1) data
  obtain ⟨d2, hr2, ha2, hn2⟩ := reflective_fill g ngrow valid p hp 0 s0 h0 (reflect 0) d1
  refine ⟨d2, ?_, ?_, ?_⟩
  · simp [boundarySetFill, hr1, hr2]
  · have hne := hp.inside 1
    rw [hn2 x (fun h => by
      have := h.2.2.2.1 1 (by decide)
      rcases hb1 with ⟨_, h⟩ | ⟨_, h⟩ <;> omega)]
    exact (ha1 x hx (hper 1) hb1 (fun d hd => by omega) (fun d _ => Or.inr (hper d))).2.1
  · simpa [Beyond, mirrorCell] using hb0

/-! ## Reflecting walls of a perfect gas -/

/-- The coordinate normal used by the reflective boundary (`UnitVector(dir)`). -/
def coordNormal (dir : Fin n) : Fin n → ℝ := fun i => if i = dir then 1 else 0

/-- **C37 (perfect gas).** The ghost cells of a reflective boundary of a perfect gas have the density, energy, pressure and sound speed of their mirror
cell and its momentum with the component normal to the wall negated. -/
theorem reflective_fill_gas (g : Geom n) (ngrow : Int) (valid : IndexBox n) (p : PatchTiles n) (hp : IsPatch g ngrow valid p) (dir : Fin n) (side : Int)
    (hside : side = 0 ∨ side = 1) (hper : ∀ d, g.periodic d = false) (data : Index n → GasComplete n) :
    ∃ data', reflectiveFill g ngrow dir side (gasReflect (coordNormal dir)) p data = some data' ∧
      ∀ x ∈ p.fab.toSet, Beyond g.domain dir side x → (∀ d, dir < d → g.domain.lower d ≤ x d ∧ x d < g.domain.upper d) →
        let y := data (mirrorCell g.domain dir side x)
        (data' x).density = y.density ∧ (data' x).energy = y.energy ∧ (data' x).pressure = y.pressure ∧ (data' x).speedOfSound = y.speedOfSound ∧
        (data' x).momentum dir = -y.momentum dir ∧ ∀ i, i ≠ dir → (data' x).momentum i = y.momentum i := by
  obtain ⟨data', hr, ha, _⟩ := reflective_fill g ngrow valid p hp dir side hside (gasReflect (coordNormal dir)) data
  refine ⟨data', hr, fun x hx hb hl => ?_⟩
  have := (ha x hx (hper dir) hb hl (fun d _ => Or.inr (hper d))).2.1
  simp only [this, gasReflect, true_and]
  refine ⟨?_, fun i hi => ?_⟩
  · simp [reflectVec, coordNormal]; ring
  · simp [reflectVec, coordNormal, hi]

/-- The signal velocities between a state and its mirror image are opposite. -/
theorem einfeldt_wall (gamma : ℝ) (dir : Fin n) (q : GasComplete n) :
    einfeldt gamma dir (gasReflect (coordNormal dir) q) q = (-(einfeldt gamma dir (gasReflect (coordNormal dir) q) q).2, (einfeldt gamma dir (gasReflect (coordNormal dir) q) q).2) ∧
    einfeldt gamma dir q (gasReflect (coordNormal dir) q) = (-(einfeldt gamma dir q (gasReflect (coordNormal dir) q)).2, (einfeldt gamma dir q (gasReflect (coordNormal dir) q)).2) := by
  have hm : (gasReflect (coordNormal dir) q).momentum dir = -q.momentum dir := by simp [gasReflect, reflectVec, coordNormal]; ring
  have e1 : ∀ u : ℝ, roeAvg q.density q.density (-u) u = 0 := fun u => by simp [roeAvg]
  have e2 : ∀ u : ℝ, roeAvg q.density q.density u (-u) = 0 := fun u => by simp [roeAvg]
  have h1 : (gasReflect (coordNormal dir) q).density = q.density := rfl
  have h2 : (gasReflect (coordNormal dir) q).speedOfSound = q.speedOfSound := rfl
  have h3 : (gasReflect (coordNormal dir) q).energy = q.energy := rfl
  have h4 : (gasReflect (coordNormal dir) q).pressure = q.pressure := rfl
  constructor
  · refine Prod.ext ?_ rfl
    simp only [einfeldt, h1, h2, h3, h4, hm, neg_div, e1, zero_sub, zero_add, mul_zero, sub_zero]
    rw [max_comm, ← min_neg_neg]
    congr 1
    ring
  · refine Prod.ext ?_ rfl
    simp only [einfeldt, h1, h2, h3, h4, hm, neg_div, e2, zero_sub, zero_add, mul_zero, sub_zero]
    rw [max_comm, ← min_neg_neg]
    congr 1
    ring

/-- **C37 (no flux through a reflecting wall).** With the HLL method and Einfeldt's signal velocities, between a cell and its mirror image, as the
reflective boundary stores it, the mass flux, the energy flux and the fluxes of the tangential momenta are zero; only the normal momentum has a flux. This
holds for walls on both sides and for every thermodynamic state. -/
theorem reflective_wall_hll (eq : GasEq) (hv : eq.Valid) (dir : Fin n) (q : GasComplete n) (hq : IsGasState eq q) :
    let r := gasReflect (coordNormal dir) q
    (∃ F, hllFlux (gasEqn eq dir) (einfeldt eq.gamma dir) r q = some F ∧ F .density = 0 ∧ F .energy = 0 ∧ ∀ i, i ≠ dir → F (.momentum i) = 0) ∧
    (∃ F, hllFlux (gasEqn eq dir) (einfeldt eq.gamma dir) q r = some F ∧ F .density = 0 ∧ F .energy = 0 ∧ ∀ i, i ≠ dir → F (.momentum i) = 0) := by
  intro r
  have hn : IsUnit' (coordNormal dir) := by simp [IsUnit', coordNormal, ite_pow]
  have hr : IsGasState eq r := ((gas_reflect eq (coordNormal dir) hn q).2.2.2.2.2.2.2.1) hq
  obtain ⟨-, fd, fe, -, fm⟩ := gas_reflect_wall q dir
  have ho : ∀ i, i ≠ dir → r.momentum i = q.momentum i := fun i hi => by simp [r, gasReflect, reflectVec, coordNormal, hi]
  obtain ⟨w1, w2⟩ := einfeldt_wall eq.gamma dir q
  have fd' : (gasFluxArray r dir).density = -(gasFluxArray q dir).density := fd
  have fe' : (gasFluxArray r dir).energy = -(gasFluxArray q dir).energy := fe
  have fm' : ∀ i, i ≠ dir → (gasFluxArray r dir).momentum i = -(gasFluxArray q dir).momentum i := fm
  constructor
  · obtain ⟨-, -, -, h4⟩ := einfeldt_bounds eq hv dir r q hr hq
    rw [show einfeldt eq.gamma dir r q = _ from w1] at h4
    have hs : 0 < (einfeldt eq.gamma dir r q).2 := by
      have : -(einfeldt eq.gamma dir r q).2 < (einfeldt eq.gamma dir r q).2 := h4
      linarith
    have hL : (einfeldt eq.gamma dir r q).1 = -(einfeldt eq.gamma dir r q).2 := congrArg Prod.fst w1
    simp only [hllFlux, hL, min_eq_right (neg_nonpos.2 hs.le), max_eq_right hs.le]
    rw [if_pos (by linarith)]
    refine ⟨_, rfl, ?_, ?_, fun i hi => ?_⟩
    · show (_ * (gasFluxArray r dir).density - _ * (gasFluxArray q dir).density + _ * (q.density - q.density)) / _ = 0
      rw [fd']; ring
    · show (_ * (gasFluxArray r dir).energy - _ * (gasFluxArray q dir).energy + _ * (q.energy - q.energy)) / _ = 0
      rw [fe']; ring
    · show (_ * (gasFluxArray r dir).momentum i - _ * (gasFluxArray q dir).momentum i + _ * (q.momentum i - r.momentum i)) / _ = 0
      rw [fm' i hi, ho i hi]; ring
  · obtain ⟨-, -, -, h4⟩ := einfeldt_bounds eq hv dir q r hq hr
    rw [show einfeldt eq.gamma dir q r = _ from w2] at h4
    have hs : 0 < (einfeldt eq.gamma dir q r).2 := by
      have : -(einfeldt eq.gamma dir q r).2 < (einfeldt eq.gamma dir q r).2 := h4
      linarith
    have hL : (einfeldt eq.gamma dir q r).1 = -(einfeldt eq.gamma dir q r).2 := congrArg Prod.fst w2
    simp only [hllFlux, hL, min_eq_right (neg_nonpos.2 hs.le), max_eq_right hs.le]
    rw [if_pos (by linarith)]
    refine ⟨_, rfl, ?_, ?_, fun i hi => ?_⟩
    · show (_ * (gasFluxArray q dir).density - _ * (gasFluxArray r dir).density + _ * (q.density - q.density)) / _ = 0
      rw [fd']; ring
    · show (_ * (gasFluxArray q dir).energy - _ * (gasFluxArray r dir).energy + _ * (q.energy - q.energy)) / _ = 0
      rw [fe']; ring
    · show (_ * (gasFluxArray q dir).momentum i - _ * (gasFluxArray r dir).momentum i + _ * (r.momentum i - q.momentum i)) / _ = 0
      rw [fm' i hi, ho i hi]; ring

/-! ## Concrete cases -/

/-- The domain `[0,4) × [0,3)` with one patch that covers its right half, visited in one tile, and two ghost cells. -/
def exGeom : Geom 2 := ⟨⟨![0, 0], ![4, 3]⟩, fun _ => false⟩
/-- The right half of the domain. -/
def exValid : IndexBox 2 := ⟨![2, 0], ![4, 3]⟩
/-- The grown patch, visited as two overlapping grown tiles. -/
def exPatch : PatchTiles 2 := ⟨⟨fun d => exValid.lower d - 2, fun d => exValid.upper d + 2⟩, [⟨![0, -2], ![6, 2]⟩, ⟨![0, 1], ![6, 5]⟩]⟩

theorem exPatch_isPatch : IsPatch exGeom 2 exValid exPatch where
  ngrow_nonneg := by norm_num
  inside := by decide
  fab_eq := rfl
  cover := by
    intro x
    simp [exPatch, exValid, IndexBox.toSet, Fin.forall_fin_two]
    omega
  tile := by decide

/-- The corner cell `(5, -1)` is behind two walls. -/
example : (![5, -1] : Index 2) ∈ exPatch.fab.toSet ∧ Beyond exGeom.domain 0 1 ![5, -1] ∧
    Beyond exGeom.domain 1 0 ![5, -1] ∧ mirrorAll exGeom.domain ![5, -1] = ![2, 0] ∧
    nearestCell exGeom.domain [(1, 0), (1, 1), (0, 1), (0, 0)] ![5, -1] = ![3, 0] := by
  refine ⟨?_, by decide, by decide, by decide, by decide⟩
  simp [exPatch, exValid, IndexBox.toSet, Fin.forall_fin_two]

/-- The reflective set on this patch with the sum of the indices as data and the negation as reflection. -/
example : ∃ data', boundarySetFill ([((0 : Fin 2), (0 : Int)), (0, 1), (1, 0), (1, 1)].map fun c => reflectiveFill exGeom 2 c.1 c.2 (fun a : Int => -a) exPatch)
    (fun x => x 0 + x 1) = some data' ∧ data' ![5, -1] = 2 ∧ data' ![5, 1] = -3 ∧ data' ![3, -2] = -4 := by
  obtain ⟨data', hr, h⟩ := boundarySet_reflective exGeom 2 exValid exPatch exPatch_isPatch (by decide) (fun _ (a : Int) => -a)
    [(0, 0), (0, 1), (1, 0), (1, 1)] (by decide) (by decide) (fun x => x 0 + x 1)
  have hall : ∀ (x : Index 2) (d : Fin 2) (s : Int), Beyond exGeom.domain d s x → (d, s) ∈ [((0 : Fin 2), (0 : Int)), (0, 1), (1, 0), (1, 1)] := by
    intro x d s hb
    rcases hb with ⟨rfl, _⟩ | ⟨rfl, _⟩ <;> fin_cases d <;> simp
  refine ⟨data', hr, ?_, ?_, ?_⟩
  · rw [h ![5, -1] (by simp [exPatch, exValid, IndexBox.toSet, Fin.forall_fin_two]) (hall _)]; decide
  · rw [h ![5, 1] (by simp [exPatch, exValid, IndexBox.toSet, Fin.forall_fin_two]) (hall _)]; decide
  · rw [h ![3, -2] (by simp [exPatch, exValid, IndexBox.toSet, Fin.forall_fin_two]) (hall _)]; decide

/-- A transmissive set in a mixed order on the same patch. -/
example : ∃ data', boundarySetFill ([((1 : Fin 2), (0 : Int)), (0, 1), (1, 1)].map fun c => transmissiveFill exGeom 2 c.1 c.2 exPatch)
    (fun x => x 0 + 10 * x 1) = some data' ∧ data' ![5, -1] = 3 ∧ data' ![5, 4] = 23 := by
  obtain ⟨data', hr, h⟩ := boundarySet_transmissive exGeom 2 exValid exPatch exPatch_isPatch [(1, 0), (0, 1), (1, 1)] (by decide) (fun x => x 0 + 10 * x 1)
  refine ⟨data', hr, ?_, ?_⟩
  · rw [h ![5, -1] (by simp [exPatch, exValid, IndexBox.toSet, Fin.forall_fin_two]) (fun _ => Or.inr rfl)]; decide
  · rw [h ![5, 4] (by simp [exPatch, exValid, IndexBox.toSet, Fin.forall_fin_two]) (fun _ => Or.inr rfl)]; decide

end Fub
