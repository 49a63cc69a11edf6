import Verif.Model.CutBoundary
import Verif.Props.Boundary
import Verif.Props.GasMix

/-!
# C142: Boundary conditions on meshes with an embedded boundary
-/

namespace Fub
variable {n : Nat} {α : Type*}

/-- The loop acts at once on the old data when no source is a destination. -/
theorem runMasked_spec (fab : IndexBox n) (isOpen : Index n → Bool) (f : α → Option α) (closed : Option α) (m : Index n → Index n) (S : Index n → Prop) :
    ∀ (W : List (Index n × Index n)) (data : Index n → α),
      (∀ p ∈ W, p.2 = m p.1 ∧ p.1 ∈ fab.toSet ∧ p.2 ∈ fab.toSet ∧ S p.1 ∧ (¬S p.2 ∨ ∀ a b, f a = f b) ∧
        (isOpen p.1 = true → isOpen p.2 = true → (f (data p.2)).isSome)) →
      ∃ data', runMasked fab isOpen f closed W data = some data' ∧
        (∀ x, (∃ p ∈ W, p.1 = x) → some (data' x) = if isOpen x && isOpen (m x) then f (data (m x)) else some (closed.getD (data x))) ∧
        (∀ x, (¬∃ p ∈ W, p.1 = x) → data' x = data x) := by
  intro W
  induction W with
  | nil => intro data _; exact ⟨data, rfl, by simp, by simp⟩
  | cons p ps ih =>
    intro data h
    obtain ⟨hm, h1, h2, hS, hS', hf⟩ := h p (by simp)
    obtain ⟨v, hv⟩ : ∃ v, maskedCell isOpen f closed p.1 p.2 data = some v := by
      unfold maskedCell
      by_cases hc : (isOpen p.1 && isOpen p.2) = true
      · rw [if_pos hc]
        rw [Bool.and_eq_true] at hc
        exact Option.isSome_iff_exists.1 (hf hc.1 hc.2)
      · exact ⟨_, if_neg hc⟩
    have key : ∀ q ∈ ps, f (Function.update data p.1 v q.2) = f (data q.2) := by
      intro q hq
      have hq' := h q (by simp [hq])
      rcases hq'.2.2.2.2.1 with hns | hc
      · have : q.2 ≠ p.1 := fun he => hns (by rw [he]; exact hS)
        rw [Function.update_of_ne this]
      · exact hc _ _
    obtain ⟨data', hr, ha, hb⟩ := ih (Function.update data p.1 v) (fun q hq => by
      obtain ⟨a1, a2, a3, a4, a5, a6⟩ := h q (by simp [hq])
      exact ⟨a1, a2, a3, a4, a5, by rw [key q hq]; exact a6⟩)
    refine ⟨data', ?_, ?_, ?_⟩
    · simp [runMasked, (contains_iff fab p.1).2 h1, (contains_iff fab p.2).2 h2, hv, hr]
    · rintro x ⟨q, hq, rfl⟩
      have hvm : some v = if isOpen p.1 && isOpen (m p.1) then f (data (m p.1)) else some (closed.getD (data p.1)) := by
        rw [← hv, maskedCell, hm]
      by_cases hps : ∃ r ∈ ps, r.1 = q.1
      · rw [ha _ hps]
        obtain ⟨r, hr, hrq⟩ := hps
        have hmr := (h r (by simp [hr])).1
        have hk := key r hr
        rw [hmr, hrq] at hk
        by_cases hc : (isOpen q.1 && isOpen (m q.1)) = true
        · rw [if_pos hc, if_pos hc, hk]
        · rw [if_neg hc, if_neg hc]
          by_cases hqp : q.1 = p.1
          · rw [hqp, Function.update_self]
            rw [hqp] at hc
            rw [if_neg hc] at hvm
            have hv' : v = closed.getD (data p.1) := Option.some.inj hvm
            rw [hv']
            cases closed <;> rfl
          · rw [Function.update_of_ne hqp]
      · rw [hb _ hps]
        have hqp : q = p := by
          rcases List.mem_cons.1 hq with h' | h'
          · exact h'
          · exact absurd ⟨q, h', rfl⟩ hps
        subst hqp
        rw [Function.update_self, hvm]
    · intro x hx
      have hx1 : ¬∃ r ∈ ps, r.1 = x := fun ⟨r, hr, he⟩ => hx ⟨r, by simp [hr], he⟩
      have hx2 : x ≠ p.1 := fun he => hx ⟨p, by simp, he.symm⟩
      rw [hb x hx1, Function.update_of_ne hx2]

/-- The cells which the conditions on a side of the domain fill (the transversal ghost cells of the directions before `dir` are included). -/
def SideCell (g : Geom n) (p : PatchTiles n) (dir : Fin n) (side : Int) (x : Index n) : Prop :=
  x ∈ p.fab.toSet ∧ g.periodic dir = false ∧ Beyond g.domain dir side x ∧
    (∀ d, dir < d → g.domain.lower d ≤ x d ∧ x d < g.domain.upper d) ∧
    (∀ d, d < dir → (g.domain.lower d ≤ x d ∧ x d < g.domain.upper d) ∨ g.periodic d = false)

/-- What a boundary condition on an embedded boundary mesh has to do, as a relation between the data before and after: in the cells `R` with
both the cell and its image open the ghost state of the image, in the other cells of `R` the value `closed` (or nothing), elsewhere nothing. -/
def FillsWith (R : Index n → Prop) (image : Index n → Index n) (isOpen : Index n → Bool) (f : α → Option α) (closed : Option α)
    (data data' : Index n → α) : Prop :=
  (∀ x, R x → isOpen x = true → isOpen (image x) = true → f (data (image x)) = some (data' x)) ∧
  (∀ x, R x → ¬(isOpen x = true ∧ isOpen (image x) = true) → data' x = closed.getD (data x)) ∧
  (∀ x, ¬R x → data' x = data x)

theorem fills_of_spec (R : Index n → Prop) (m : Index n → Index n) (isOpen : Index n → Bool) (f : α → Option α) (closed : Option α)
    (data data' : Index n → α)
    (ha : ∀ x, R x → some (data' x) = if isOpen x && isOpen (m x) then f (data (m x)) else some (closed.getD (data x)))
    (hb : ∀ x, ¬R x → data' x = data x) : FillsWith R m isOpen f closed data data' := by
  refine ⟨fun x hx h1 h2 => ?_, fun x hx hc => ?_, hb⟩
  · rw [ha x hx, h1, h2]; rfl
  · have := ha x hx
    rw [if_neg (by rwa [Bool.and_eq_true])] at this
    exact Option.some.inj this

/-- All conditions on a side of the domain. -/
theorem masked_side_fill (g : Geom n) (ngrow : Int) (valid : IndexBox n) (p : PatchTiles n) (hp : IsPatch g ngrow valid p) (dir : Fin n) (side : Int)
    (hside : side = 0 ∨ side = 1) (isOpen : Index n → Bool) (f : α → Option α) (closed : Option α) (src : IndexBox n → Index n → Index n)
    (m : Index n → Index n)
    (hsrc : ∀ t ∈ p.tiles, ∀ x ∈ p.fab.toSet, Beyond g.domain dir side x →
      ∀ box : IndexBox n, (if side = 0 then box.upper dir = g.domain.lower dir else box.lower dir = g.domain.upper dir) → src box x = m x)
    (hm : ∀ x ∈ p.fab.toSet, Beyond g.domain dir side x → m x ∈ p.fab.toSet ∧ ¬Beyond g.domain dir side (m x)) (data : Index n → α)
    (hf : ∀ x, SideCell g p dir side x → isOpen x = true → isOpen (m x) = true → (f (data (m x))).isSome) :
    ∃ data', runMasked p.fab isOpen f closed
        (ghostCopies p.tiles (sideBoxes (boxDiff (g.grown ngrow) g.domain) g.domain dir side ngrow) src) data = some data' ∧
      FillsWith (SideCell g p dir side) m isOpen f closed data data' := by
  have hg := hp.ngrow_nonneg
  obtain ⟨hW, hx⟩ := ghost_copies g ngrow valid p hp dir side hside g.domain (fun d => ⟨le_refl _, le_refl _⟩)
    (fun d => by simp only [Geom.grown]; split_ifs <;> omega) ⟨rfl, rfl⟩ src m hsrc (fun x h1 h2 => (hm x h1 h2).1)
  have hcond : ∀ x ∈ p.fab.toSet, (∀ d, d ≠ dir → (dir < d → g.domain.lower d ≤ x d ∧ x d < g.domain.upper d) ∧
      (d < dir → (g.grown ngrow).lower d ≤ x d ∧ x d < (g.grown ngrow).upper d)) ↔
      ((∀ d, dir < d → g.domain.lower d ≤ x d ∧ x d < g.domain.upper d) ∧
        (∀ d, d < dir → (g.domain.lower d ≤ x d ∧ x d < g.domain.upper d) ∨ g.periodic d = false)) := by
    intro x hx
    constructor
    · exact fun h => ⟨fun d hd => (h d hd.ne').1 hd, fun d hd => (grown_range g ngrow valid p hp x hx d).1 ((h d hd.ne).2 hd)⟩
    · exact fun h d _ => ⟨h.1 d, fun hd => (grown_range g ngrow valid p hp x hx d).2 (h.2 d hd)⟩
  have hR : ∀ x, (∃ q ∈ ghostCopies p.tiles (sideBoxes (boxDiff (g.grown ngrow) g.domain) g.domain dir side ngrow) src, q.1 = x) ↔
      SideCell g p dir side x := by
    intro x
    rw [hx x]
    constructor
    · rintro ⟨a, b, c, d⟩; exact ⟨a, b, c, (hcond x a).1 d⟩
    · rintro ⟨a, b, c, d⟩; exact ⟨a, b, c, (hcond x a).2 d⟩
  obtain ⟨data', hr, ha, hb⟩ := runMasked_spec p.fab isOpen f closed m (Beyond g.domain dir side) _ data (fun q hq => by
    obtain ⟨h1, h2, h3, h4⟩ := hW q hq
    refine ⟨h1, h2, h3, h4, Or.inl (by rw [h1]; exact (hm q.1 h2 h4).2), fun h5 h6 => ?_⟩
    rw [h1] at h6 ⊢
    exact hf q.1 ((hR q.1).1 ⟨q, hq, rfl⟩) h5 h6)
  exact ⟨data', hr, fills_of_spec _ m isOpen f closed data data' (fun x hx => ha x ((hR x).2 hx)) (fun x hx => hb x (fun h => hx ((hR x).1 h)))⟩

theorem mirror_in_patch {g : Geom n} {ngrow : Int} {valid : IndexBox n} {p : PatchTiles n} (hp : IsPatch g ngrow valid p) {dir : Fin n} {side : Int}
    (x : Index n) (hx : x ∈ p.fab.toSet) (hb : Beyond g.domain dir side x) :
    mirrorCell g.domain dir side x ∈ p.fab.toSet ∧ ¬Beyond g.domain dir side (mirrorCell g.domain dir side x) := by
  have hfab : ∀ x, x ∈ p.fab.toSet ↔ ∀ d, valid.lower d - ngrow ≤ x d ∧ x d < valid.upper d + ngrow := by
    intro x; rw [hp.fab_eq]; rfl
  have hg := hp.ngrow_nonneg
  refine ⟨?_, ?_⟩
  · rw [hfab] at hx ⊢
    intro d
    have h1 := hx d
    have h2 := hp.inside d
    simp only [mirrorCell]
    by_cases hd : d = dir
    · subst hd
      rcases hb with ⟨rfl, h⟩ | ⟨rfl, h⟩
      · simp only [if_true]; omega
      · norm_num; omega
    · simp only [hd, if_false]; exact h1
  · rcases hb with ⟨rfl, h⟩ | ⟨rfl, h⟩
    · simp [Beyond, mirrorCell]; omega
    · simp [Beyond, mirrorCell]; omega

theorem edge_in_patch {g : Geom n} {ngrow : Int} {valid : IndexBox n} {p : PatchTiles n} (hp : IsPatch g ngrow valid p) {dir : Fin n} {side : Int}
    (x : Index n) (hx : x ∈ p.fab.toSet) (hb : Beyond g.domain dir side x) :
    edgeCell g.domain dir side x ∈ p.fab.toSet ∧ ¬Beyond g.domain dir side (edgeCell g.domain dir side x) := by
  have hfab : ∀ x, x ∈ p.fab.toSet ↔ ∀ d, valid.lower d - ngrow ≤ x d ∧ x d < valid.upper d + ngrow := by
    intro x; rw [hp.fab_eq]; rfl
  have hg := hp.ngrow_nonneg
  refine ⟨?_, ?_⟩
  · rw [hfab] at hx ⊢
    intro d
    have h1 := hx d
    have h2 := hp.inside d
    simp only [edgeCell]
    by_cases hd : d = dir
    · subst hd
      rcases hb with ⟨rfl, h⟩ | ⟨rfl, h⟩
      · simp only [if_true]; omega
      · norm_num; omega
    · simp only [hd, if_false]; exact h1
  · rcases hb with ⟨rfl, h⟩ | ⟨rfl, h⟩
    · simp [Beyond, edgeCell]
    · simp [Beyond, edgeCell]

theorem reflectIndex_mirror (dom box : IndexBox n) (dir : Fin n) (side : Int) (hside : side = 0 ∨ side = 1) (x : Index n)
    (hbox : if side = 0 then box.upper dir = dom.lower dir else box.lower dir = dom.upper dir) :
    reflectIndex x box dir side = mirrorCell dom dir side x := by
  funext d
  rcases hside with rfl | rfl
  · simp only [if_true] at hbox
    by_cases hd : d = dir
    · subst hd; simp [reflectIndex, mirrorCell, hbox]; ring
    · simp [reflectIndex, mirrorCell, hd]
  · simp only [one_ne_zero, if_false] at hbox
    by_cases hd : d = dir
    · subst hd; simp [reflectIndex, mirrorCell, hbox]; ring
    · simp [reflectIndex, mirrorCell, hd]

theorem besideBox_edge (dom box : IndexBox n) (dir : Fin n) (side : Int) (hside : side = 0 ∨ side = 1) (x : Index n)
    (hbox : if side = 0 then box.upper dir = dom.lower dir else box.lower dir = dom.upper dir) :
    besideBox box x dir side = edgeCell dom dir side x := by
  funext d
  rcases hside with rfl | rfl
  · simp only [if_true] at hbox
    by_cases hd : d = dir
    · subst hd; simp [besideBox, edgeCell, hbox]
    · simp [besideBox, edgeCell, hd]
  · simp only [one_ne_zero, if_false] at hbox
    by_cases hd : d = dir
    · subst hd; simp [besideBox, edgeCell, hbox]
    · simp [besideBox, edgeCell, hd]

theorem mapToSrc_edge (dom : IndexBox n) (dir : Fin n) (side : Int) (hside : side = 0 ∨ side = 1) (x : Index n) :
    mapToSrc x dom side dir = edgeCell dom dir side x := by
  funext d
  rcases hside with rfl | rfl
  · by_cases hd : d = dir
    · subst hd; simp [mapToSrc, edgeCell]
    · simp [mapToSrc, edgeCell, hd]
  · by_cases hd : d = dir
    · subst hd; simp [mapToSrc, edgeCell]
    · simp [mapToSrc, edgeCell, hd]

theorem mapToMirror_mirror (dom : IndexBox n) (dir : Fin n) (side : Int) (x : Index n) (hb : Beyond dom dir side x) :
    mapToMirror x dom side dir = mirrorCell dom dir side x := by
  funext d
  rcases hb with ⟨rfl, h⟩ | ⟨rfl, h⟩
  · by_cases hd : d = dir
    · subst hd
      simp only [mapToMirror, mirrorCell, if_true, Function.update_self]
      norm_num
      rw [if_neg (by omega), if_pos (by omega)]
      omega
    · simp [mapToMirror, mirrorCell, hd]
  · by_cases hd : d = dir
    · subst hd
      simp only [mapToMirror, mirrorCell, if_true, Function.update_self]
      norm_num
      rw [if_pos (by omega), if_neg (by omega)]
      omega
    · simp [mapToMirror, mirrorCell, hd]

/-- **C142 (reflective walls).** For every domain, patch, tiling, side, embedded boundary and data: the ghost cells beyond the side get the reflected
state of their mirror image when both cells are open, and zeros otherwise. All other cells keep their state. -/
theorem cut_reflective_fill (g : Geom n) (ngrow : Int) (valid : IndexBox n) (p : PatchTiles n) (hp : IsPatch g ngrow valid p) (dir : Fin n)
    (side : Int) (hside : side = 0 ∨ side = 1) (isOpen : Index n → Bool) (f : α → Option α) (zeros : α) (data : Index n → α)
    (hf : ∀ x, SideCell g p dir side x → isOpen x = true → isOpen (mirrorCell g.domain dir side x) = true →
      (f (data (mirrorCell g.domain dir side x))).isSome) :
    ∃ data', cutReflectiveFill g ngrow dir side isOpen f zeros p data = some data' ∧
      FillsWith (SideCell g p dir side) (mirrorCell g.domain dir side) isOpen f (some zeros) data data' :=
  masked_side_fill g ngrow valid p hp dir side hside isOpen f (some zeros) _ _
    (fun _ _ x _ _ box hbox => reflectIndex_mirror g.domain box dir side hside x hbox) (fun x h1 h2 => mirror_in_patch hp x h1 h2) data hf

/-- **C142 (pressure outlets).** The same for the pressure outlets, which take the state of the nearest cell of the domain. -/
theorem cut_outflow_fill (g : Geom n) (ngrow : Int) (valid : IndexBox n) (p : PatchTiles n) (hp : IsPatch g ngrow valid p) (dir : Fin n)
    (side : Int) (hside : side = 0 ∨ side = 1) (isOpen : Index n → Bool) (f : α → Option α) (zeros : α) (data : Index n → α)
    (hf : ∀ x, SideCell g p dir side x → isOpen x = true → isOpen (edgeCell g.domain dir side x) = true →
      (f (data (edgeCell g.domain dir side x))).isSome) :
    ∃ data', cutOutflowFill g ngrow dir side isOpen f zeros p data = some data' ∧
      FillsWith (SideCell g p dir side) (edgeCell g.domain dir side) isOpen f (some zeros) data data' :=
  masked_side_fill g ngrow valid p hp dir side hside isOpen f (some zeros) _ _
    (fun _ _ x _ _ box hbox => besideBox_edge g.domain box dir side hside x hbox) (fun x h1 h2 => edge_in_patch hp x h1 h2) data hf

/-- **C142 (isentropic outlet of the ideal gas mixture).** Here the closed ghost cells keep what they had. -/
theorem cut_isentropic_fill (g : Geom n) (ngrow : Int) (valid : IndexBox n) (p : PatchTiles n) (hp : IsPatch g ngrow valid p) (dir : Fin n)
    (side : Int) (hside : side = 0 ∨ side = 1) (isOpen : Index n → Bool) (f : α → Option α) (data : Index n → α)
    (hf : ∀ x, SideCell g p dir side x → isOpen x = true → isOpen (edgeCell g.domain dir side x) = true →
      (f (data (edgeCell g.domain dir side x))).isSome) :
    ∃ data', cutIsentropicFill g ngrow dir side isOpen f p data = some data' ∧
      FillsWith (SideCell g p dir side) (edgeCell g.domain dir side) isOpen f none data data' :=
  masked_side_fill g ngrow valid p hp dir side hside isOpen f none _ _
    (fun _ _ x _ _ box hbox => besideBox_edge g.domain box dir side hside x hbox) (fun x h1 h2 => edge_in_patch hp x h1 h2) data hf

/-- **C142 (expansion into an outer pressure, with and without embedded boundary).** The images are the mirrored cells. -/
theorem expansion_fill (g : Geom n) (ngrow : Int) (valid : IndexBox n) (p : PatchTiles n) (hp : IsPatch g ngrow valid p) (dir : Fin n)
    (side : Int) (hside : side = 0 ∨ side = 1) (isOpen : Index n → Bool) (f : α → Option α) (data : Index n → α)
    (hf : ∀ x, SideCell g p dir side x → isOpen x = true → isOpen (mirrorCell g.domain dir side x) = true →
      (f (data (mirrorCell g.domain dir side x))).isSome) :
    ∃ data', expansionFill g ngrow dir side isOpen f p data = some data' ∧
      FillsWith (SideCell g p dir side) (mirrorCell g.domain dir side) isOpen f none data data' :=
  masked_side_fill g ngrow valid p hp dir side hside isOpen f none _ _
    (fun _ _ x _ hb _ _ => mapToMirror_mirror g.domain dir side x hb) (fun x h1 h2 => mirror_in_patch hp x h1 h2) data hf

/-- The cells of a given section of the ghost cells. -/
def SectionCell (section_ : IndexBox n) (p : PatchTiles n) (x : Index n) : Prop := x ∈ p.fab.toSet ∧ x ∈ section_.toSet

theorem masked_section_fill (g : Geom n) (ngrow : Int) (valid : IndexBox n) (p : PatchTiles n) (hp : IsPatch g ngrow valid p) (section_ : IndexBox n)
    (isOpen : Index n → Bool) (f : α → Option α) (closed : Option α) (src : IndexBox n → Index n → Index n) (m : Index n → Index n)
    (hsrc : ∀ t ∈ p.tiles, ∀ x, SectionCell section_ p x → src (boxAnd t section_) x = m x)
    (hm : ∀ x, SectionCell section_ p x → m x ∈ p.fab.toSet ∧ m x ∉ section_.toSet) (data : Index n → α)
    (hf : ∀ x, SectionCell section_ p x → isOpen x = true → isOpen (m x) = true → (f (data (m x))).isSome) :
    ∃ data', runMasked p.fab isOpen f closed (ghostCopies p.tiles [section_] src) data = some data' ∧
      FillsWith (SectionCell section_ p) m isOpen f closed data data' := by
  have hR : ∀ x, (∃ q ∈ ghostCopies p.tiles [section_] src, q.1 = x) ↔ SectionCell section_ p x := by
    intro x
    constructor
    · rintro ⟨q, hq, rfl⟩
      obtain ⟨t, ht, b, hb, h1, h2, -⟩ := (mem_ghostCopies _ _ _ q).1 hq
      rw [List.mem_singleton] at hb
      subst hb
      exact ⟨(hp.cover _).2 ⟨t, ht, h1⟩, h2⟩
    · rintro ⟨h1, h2⟩
      obtain ⟨t, ht, hxt⟩ := (hp.cover x).1 h1
      exact ⟨(x, src (boxAnd t section_) x), (mem_ghostCopies _ _ _ _).2 ⟨t, ht, section_, by simp, hxt, h2, rfl⟩, rfl⟩
  obtain ⟨data', hr, ha, hb⟩ := runMasked_spec p.fab isOpen f closed m (· ∈ section_.toSet) _ data (fun q hq => by
    have hc := (hR q.1).1 ⟨q, hq, rfl⟩
    obtain ⟨t, ht, b, hb, h1, h2, h3⟩ := (mem_ghostCopies _ _ _ q).1 hq
    rw [List.mem_singleton] at hb
    subst hb
    rw [hsrc t ht q.1 hc] at h3
    refine ⟨h3, hc.1, by rw [h3]; exact (hm q.1 hc).1, hc.2, Or.inl (by rw [h3]; exact (hm q.1 hc).2), fun h5 h6 => ?_⟩
    rw [h3] at h6 ⊢
    exact hf q.1 hc h5 h6)
  exact ⟨data', hr, fills_of_spec _ m isOpen f closed data data' (fun x hx => ha x ((hR x).2 hx)) (fun x hx => hb x (fun h => hx ((hR x).1 h)))⟩

/-- **C142 (wall on a section).** When the section lies beyond the side and touches the domain, exactly its cells in the patch get the reflected state of
their mirror image or zeros. -/
theorem section_reflective_fill_partial (g : Geom n) (ngrow : Int) (valid : IndexBox n) (p : PatchTiles n) (hp : IsPatch g ngrow valid p) (dir : Fin n)
    (side : Int) (hside : side = 0 ∨ side = 1) (section_ : IndexBox n)
    (hsec : if side = 0 then section_.upper dir = g.domain.lower dir else section_.lower dir = g.domain.upper dir)
    (isOpen : Index n → Bool) (f : α → Option α) (zeros : α) (data : Index n → α)
    (hf : ∀ x, SectionCell section_ p x → isOpen x = true → isOpen (mirrorCell g.domain dir side x) = true →
      (f (data (mirrorCell g.domain dir side x))).isSome) :
    ∃ data', sectionReflectiveFill section_ dir side isOpen f zeros p data = some data' ∧
      FillsWith (SectionCell section_ p) (mirrorCell g.domain dir side) isOpen f (some zeros) data data' := by
  have hbey : ∀ x, SectionCell section_ p x → Beyond g.domain dir side x := by
    intro x hx
    have := hx.2 dir
    rcases hside with rfl | rfl
    · simp only [if_true] at hsec; exact Or.inl ⟨rfl, by omega⟩
    · simp only [one_ne_zero, if_false] at hsec; exact Or.inr ⟨rfl, by omega⟩
  refine masked_section_fill g ngrow valid p hp section_ isOpen f (some zeros) _ _ (fun t ht x hx => ?_) (fun x hx => ?_) data hf
  · refine reflectIndex_mirror g.domain _ dir side hside x ?_
    have htd := hp.tile t ht dir
    rcases hside with rfl | rfl
    · simp only [if_true] at hsec ⊢; simp only [boxAnd]; omega
    · simp only [one_ne_zero, if_false] at hsec ⊢; simp only [boxAnd]; omega
  · refine ⟨(mirror_in_patch hp x hx.1 (hbey x hx)).1, fun hmem => ?_⟩
    exact (mirror_in_patch hp x hx.1 (hbey x hx)).2 (by
      have := hmem dir
      rcases hside with rfl | rfl
      · simp only [if_true] at hsec; exact Or.inl ⟨rfl, by omega⟩
      · simp only [one_ne_zero, if_false] at hsec; exact Or.inr ⟨rfl, by omega⟩)

/-- **C142 (turbine and Mach number boundary on a section).** When the section lies beyond the side, exactly its open cells in the patch whose nearest
cell of the domain is open get the ghost state of that cell. -/
theorem section_edge_fill_partial (g : Geom n) (ngrow : Int) (valid : IndexBox n) (p : PatchTiles n) (hp : IsPatch g ngrow valid p) (dir : Fin n)
    (side : Int) (hside : side = 0 ∨ side = 1) (section_ : IndexBox n)
    (hsec : ∀ x ∈ section_.toSet, Beyond g.domain dir side x)
    (isOpen : Index n → Bool) (f : α → Option α) (data : Index n → α)
    (hf : ∀ x, SectionCell section_ p x → isOpen x = true → isOpen (edgeCell g.domain dir side x) = true →
      (f (data (edgeCell g.domain dir side x))).isSome) :
    ∃ data', sectionEdgeFill g section_ dir side isOpen f p data = some data' ∧
      FillsWith (SectionCell section_ p) (edgeCell g.domain dir side) isOpen f none data data' :=
  masked_section_fill g ngrow valid p hp section_ isOpen f none _ _
    (fun _ _ x _ => mapToSrc_edge g.domain dir side hside x)
    (fun x hx => ⟨(edge_in_patch hp x hx.1 (hsec x hx.2)).1, fun hmem => (edge_in_patch hp x hx.1 (hsec x hx.2)).2 (hsec _ hmem)⟩) data hf

/-- The cells which the constant boundary fills. -/
def SlabCell (g : Geom n) (p : PatchTiles n) (dir : Fin n) (side : Int) (x : Index n) : Prop :=
  x ∈ p.fab.toSet ∧ g.periodic dir = false ∧ Beyond g.domain dir side x ∧
    ∀ d, d ≠ dir → (g.domain.lower d ≤ x d ∧ x d < g.domain.upper d) ∨ g.periodic d = false

/-- **C142 (constant).** The ghost cells beyond the side, also those in the corners, get the given state when they are open and zeros otherwise. -/
theorem cut_constant_fill (g : Geom n) (ngrow : Int) (valid : IndexBox n) (p : PatchTiles n) (hp : IsPatch g ngrow valid p) (dir : Fin n)
    (side : Int) (hside : side = 0 ∨ side = 1) (isOpen : Index n → Bool) (state zeros : α) (data : Index n → α) :
    ∃ data', cutConstantFill g ngrow dir side isOpen state zeros p data = some data' ∧
      (∀ x, SlabCell g p dir side x → data' x = if isOpen x then state else zeros) ∧ (∀ x, ¬SlabCell g p dir side x → data' x = data x) := by
  cases hper : g.periodic dir with
  | true =>
    refine ⟨data, ?_, fun x hx => absurd hx.2.1 (by simp [hper]), fun _ _ => rfl⟩
    have : ghostCopies p.tiles (slabBoxes g ngrow dir side) (fun _ i => i) = [] := by simp [ghostCopies, slabBoxes, hper]
    rw [cutConstantFill, this]; rfl
  | false =>
    have hg := hp.ngrow_nonneg
    simp only [cutConstantFill, slabBoxes, hper, Bool.false_eq_true, if_false]
    set b2 : IndexBox n := ⟨Function.update (g.grown ngrow).lower dir ((g.grown ngrow).lower dir + ngrow),
      Function.update (g.grown ngrow).upper dir ((g.grown ngrow).upper dir - ngrow)⟩ with hb2
    have e : ∀ d, d ≠ dir → b2.lower d = (g.grown ngrow).lower d ∧ b2.upper d = (g.grown ngrow).upper d := fun d hd => by simp [hb2, hd]
    have ed : b2.lower dir = g.domain.lower dir ∧ b2.upper dir = g.domain.upper dir := by simp [hb2, Geom.grown, hper]
    have eg : (g.grown ngrow).lower dir = g.domain.lower dir - ngrow ∧ (g.grown ngrow).upper dir = g.domain.upper dir + ngrow := by simp [Geom.grown, hper]
    have eg' : ∀ d, (g.grown ngrow).lower d ≤ g.domain.lower d ∧ g.domain.upper d ≤ (g.grown ngrow).upper d := fun d => by
      simp only [Geom.grown]; split_ifs <;> omega
    obtain ⟨hW, hx⟩ := ghost_copies g ngrow valid p hp dir side hside b2
      (fun d => by by_cases hd : d = dir
                   · subst hd; omega
                   · have := e d hd; have := eg' d; omega)
      (fun d => by by_cases hd : d = dir
                   · subst hd; omega
                   · have := e d hd; omega)
      ed (fun _ i => i) id (fun _ _ _ _ _ _ _ => rfl) (fun _ hx _ => hx)
    have hR : ∀ x, (∃ q ∈ ghostCopies p.tiles (sideBoxes (boxDiff (g.grown ngrow) b2) g.domain dir side ngrow) (fun _ i => i), q.1 = x) ↔
        SlabCell g p dir side x := by
      intro x
      rw [hx x]
      have hc : ∀ _ : x ∈ p.fab.toSet, (∀ d, d ≠ dir → (dir < d → b2.lower d ≤ x d ∧ x d < b2.upper d) ∧
        (d < dir → (g.grown ngrow).lower d ≤ x d ∧ x d < (g.grown ngrow).upper d)) ↔
        (∀ d, d ≠ dir → (g.domain.lower d ≤ x d ∧ x d < g.domain.upper d) ∨ g.periodic d = false) := by
        intro hx
        refine forall_congr' fun d => forall_congr' fun hd => ?_
        rw [(e d hd).1, (e d hd).2, ← grown_range g ngrow valid p hp x hx d]
        rcases lt_or_gt_of_ne hd with h | h
        · simp [h, not_lt.2 h.le]
        · simp [h, not_lt.2 h.le]
      constructor
      · rintro ⟨a, b, c, d⟩; exact ⟨a, b, c, (hc a).1 d⟩
      · rintro ⟨a, b, c, d⟩; exact ⟨a, b, c, (hc a).2 d⟩
    obtain ⟨data', hr, ha, hb⟩ := runMasked_spec p.fab isOpen (fun _ => some state) (some zeros) id (Beyond g.domain dir side) _ data
      (fun q hq => by
        obtain ⟨h1, h2, h3, h4⟩ := hW q hq
        exact ⟨h1, h2, h3, h4, Or.inr fun _ _ => rfl, fun _ _ => rfl⟩)
    refine ⟨data', hr, fun x hx => ?_, fun x hx => hb x (fun h => hx ((hR x).1 h))⟩
    have := ha x ((hR x).2 hx)
    cases hc : isOpen x <;> simp [hc] at this ⊢ <;> exact this

/-- **C142 is false on refined levels.** The section is given once in cells and used on every level. With a coarse domain of 8 cells, ratio two and the
wall of the upper side in the cells 8 and 9, the wall overwrites the cells 8 and 9 in the middle of the fine domain, and the ghost cells beyond the fine
domain are not filled. -/
theorem section_level_wrong (f : Int → Int) :
    let g : Geom 1 := ⟨⟨fun _ => 0, fun _ => 16⟩, fun _ => false⟩
    let p : PatchTiles 1 := ⟨⟨fun _ => -2, fun _ => 18⟩, [⟨fun _ => -2, fun _ => 18⟩]⟩
    let data' := sectionReflectiveFill ⟨fun _ => 8, fun _ => 10⟩ 0 1 (fun _ => true) (fun a => some (f a)) 0 p (fun x => x 0)
    (∀ x ∈ g.domain.toSet, ¬Beyond g.domain 0 1 x) ∧
    (data'.map fun d => (d fun _ => 8, d fun _ => 9, d fun _ => 16, d fun _ => 17)) = some (f 7, f 6, 16, 17) := by
  refine ⟨?_, ?_⟩
  · rintro x hx (⟨h, -⟩ | ⟨-, h⟩)
    · exact absurd h (by decide)
    · have := hx 0; simp at this h; omega
  · rfl

/-! ## C65: the expansion of the embedded boundary mesh -/

section
variable {d s t : ℕ} {eq : MixEq} {q : MixComplete d s t}

/-- **C65 (embedded boundary, gas mixtures), what holds.** For every state and every positive outer pressure the ghost state is a state of the gas with
the outer pressure, the isentropic density and the same transversal velocities. -/
theorem mixExpandState_partial (h : eq.Valid) (hM : eq.Msq = 1) (hq : IsMixState eq q) (pn eff : ℝ) (hpn : 0 < pn) :
    let q' := mixExpandState eq q pn eff
    IsMixState eq q' ∧ q'.pressure = pn ∧ q'.density = q.density * (pn / q.pressure) ^ (1 / eq.gamma) ∧
    ∀ i, i ≠ 0 → q'.momentum i / q'.density = q.momentum i / q.density := by
  intro q'
  obtain ⟨a1, a2, a3, a4, a5, a6, -⟩ := mixSetVelocity_spec eq q hq fun _ => 0
  obtain ⟨k1, k2, k3, -⟩ := setIsentropic_partial h hM (a6 hM) pn hpn
  set z := setIsentropicPressure eq (mixSetVelocity q fun _ => 0) pn with hz
  obtain ⟨v, hv, hvi⟩ : ∃ v : Fin (d + 1) → ℝ, q' = mixSetVelocity z v ∧ ∀ i, i ≠ 0 → v i = q.momentum i / q.density :=
    ⟨_, rfl, fun i hi => by simp [hi, mixVelocity]⟩
  obtain ⟨b1, b2, b3, b4, b5, b6, -⟩ := mixSetVelocity_spec eq z k1 v
  rw [hv]
  refine ⟨b6 hM, b3.trans k2, ?_, fun i hi => ?_⟩
  · rw [b2, k3, a2, a3]
  · rw [← hvi i hi, ← congrFun b1 i]; rfl

/-- **C65 is false (embedded boundary, gas mixtures).** For every state: when the outer pressure is not above the pressure, the flow keeps its speed in
the first direction and leaves in positive direction, whatever the efficiency and the drop of the pressure are; a flow in negative direction is reversed even
for equal pressures. Above the pressure the kinetic energy changes by twice the efficiency times the change of the enthalpy. -/
theorem mixExpandState_speed (h : eq.Valid) (hM : eq.Msq = 1) (hq : IsMixState eq q) (pn eff : ℝ) (hpn : 0 < pn) :
    let q' := mixExpandState eq q pn eff
    let u := q.momentum 0 / q.density
    let u' := q'.momentum 0 / q'.density
    let dh := eq.gamma / (eq.gamma - 1) * (pn / q'.density - q.pressure / q.density)
    (pn ≤ q.pressure → u' = |u|) ∧ (q.pressure < pn → |u'| ^ 2 = |u ^ 2 - 4 * eff * dh| ∧ (u ^ 2 < 4 * eff * dh → u' < 0)) := by
  intro q' u u' dh
  obtain ⟨g0, g1, g2⟩ := h.pos
  obtain ⟨a1, a2, a3, a4, a5, a6, -⟩ := mixSetVelocity_spec eq q hq fun _ => 0
  have hr := a6 hM
  obtain ⟨k1, k2, k3, k4, k5, k6, k7, k8, k9⟩ := setIsentropic_partial h hM hr pn hpn
  set r := mixSetVelocity q fun _ => 0 with hrd
  have hrm : ∀ i, r.momentum i / r.density = 0 := fun i => congrFun a1 i
  have hst : stagnationPressure eq r = q.pressure := by
    rw [stagnationPressure]; simp only [hrm]; simp [a3]
  have hHr : r.totalEnthalpy = eq.gamma / (eq.gamma - 1) * (q.pressure / q.density) := by
    rw [totalEnthalpy_eq h.one_lt hM hr]; simp only [hrm]; simp [a2, a3]
  set z := setIsentropicPressure eq r pn with hz
  obtain ⟨E, hE, hu'⟩ : ∃ E, E = eff * (r.totalEnthalpy - z.totalEnthalpy) * 2 + u * u ∧ ∃ v : Fin (d + 1) → ℝ, q' = mixSetVelocity z v ∧
      v 0 = (if 0 ≤ E then 1 else -1) * Real.sqrt |E| := ⟨_, rfl, _, rfl, by rw [if_pos rfl]; rfl⟩
  obtain ⟨v, hv, hv0⟩ := hu'
  obtain ⟨b1, b2, -⟩ := mixSetVelocity_spec eq z k1 v
  have hu : u' = (if 0 ≤ E then 1 else -1) * Real.sqrt |E| := by
    rw [← hv0, ← congrFun b1 0]; simp only [u', hv]; rfl
  have hqd : q'.density = z.density := by rw [hv, b2]
  constructor
  · intro hle
    have : z.totalEnthalpy = r.totalEnthalpy := (k6 (by rw [hst]; exact hle)).1
    rw [this, sub_self, mul_zero, zero_mul, zero_add] at hE
    rw [hu, hE, if_pos (mul_self_nonneg u), one_mul, abs_mul_self, Real.sqrt_mul_self_eq_abs]
  · intro hlt
    have h0 : r.totalEnthalpy < eq.gamma / (eq.gamma - 1) * (pn / z.density) := by
      have h1 : r.totalEnthalpy < z.totalEnthalpy := (k7 (by rw [hst]; exact hlt)).1
      by_contra hc
      have h2 := k8
      rw [abs_of_nonneg (sub_nonneg.2 (not_lt.1 hc))] at h2
      linarith
    have h2 : z.totalEnthalpy = 2 * (eq.gamma / (eq.gamma - 1) * (pn / z.density)) - r.totalEnthalpy := by
      have h2 := k8
      rw [abs_of_neg (sub_neg.2 h0)] at h2
      linarith
    have hE2 : E = u ^ 2 - 4 * eff * dh := by
      rw [hE, h2, hHr]; simp only [dh, hqd]; ring
    constructor
    · rw [← hE2, hu, abs_mul, mul_pow, abs_of_nonneg (Real.sqrt_nonneg _), Real.sq_sqrt (abs_nonneg _)]
      split_ifs <;> simp
    · intro hlt
      have hneg : E < 0 := by rw [hE2]; linarith
      rw [hu, if_neg (not_le.2 hneg)]
      have := Real.sqrt_pos.2 (abs_pos.2 hneg.ne)
      linarith

end

/-! ## Examples -/

/-- A wall at the right side: the ghost cell (4, 1) is open, (5, 1) lies in the embedded boundary and (4, -1) is no ghost cell of this side only. -/
example : ∃ data', cutReflectiveFill exGeom 2 0 1 (fun x => decide (x ≠ ![5, 1])) (fun a : Int => some (-a)) 100 exPatch (fun x => x 0 + 10 * x 1) = some data' ∧
    data' ![4, 1] = -13 ∧ data' ![5, 1] = 100 ∧ data' ![4, -1] = -6 ∧ data' ![3, 1] = 13 := by
  obtain ⟨data', hr, h⟩ := cut_reflective_fill exGeom 2 exValid exPatch exPatch_isPatch 0 1 (Or.inr rfl) (fun x => decide (x ≠ ![5, 1]))
    (fun a : Int => some (-a)) 100 (fun x => x 0 + 10 * x 1) (fun _ _ _ _ => rfl)
  have m : ∀ x : Index 2, (x = ![4, 1] ∨ x = ![5, 1]) → SideCell exGeom exPatch 0 1 x := by
    rintro x (rfl | rfl) <;>
      simp [SideCell, exPatch, exValid, exGeom, IndexBox.toSet, Fin.forall_fin_two, Beyond]
  refine ⟨data', hr, ?_, ?_, ?_, ?_⟩
  · have := h.1 ![4, 1] (m _ (Or.inl rfl)) (by decide) (by decide)
    exact (Option.some.inj this).symm
  · exact h.2.1 ![5, 1] (m _ (Or.inr rfl)) (by decide)
  · exact h.2.2 ![4, -1] (by simp [SideCell, exGeom, Fin.forall_fin_two])
  · exact h.2.2 ![3, 1] (by simp [SideCell, exGeom, Fin.forall_fin_two, Beyond])

/-- A wall on the part `y < 2` of the right side. -/
example : ∃ data', sectionReflectiveFill ⟨![4, 0], ![6, 2]⟩ 0 1 (fun _ => true) (fun a : Int => some (-a)) 100 exPatch (fun x => x 0 + 10 * x 1) = some data' ∧
    data' ![4, 1] = -13 ∧ data' ![5, 0] = -2 ∧ data' ![4, 2] = 24 := by
  obtain ⟨data', hr, h⟩ := section_reflective_fill_partial exGeom 2 exValid exPatch exPatch_isPatch 0 1 (Or.inr rfl) ⟨![4, 0], ![6, 2]⟩ rfl (fun _ => true)
    (fun a : Int => some (-a)) 100 (fun x => x 0 + 10 * x 1) (fun _ _ _ _ => rfl)
  have m : ∀ x : Index 2, (x = ![4, 1] ∨ x = ![5, 0]) → SectionCell ⟨![4, 0], ![6, 2]⟩ exPatch x := by
    rintro x (rfl | rfl) <;> simp [SectionCell, exPatch, exValid, IndexBox.toSet, Fin.forall_fin_two]
  exact ⟨data', hr, (Option.some.inj (h.1 ![4, 1] (m _ (Or.inl rfl)) rfl rfl)).symm, (Option.some.inj (h.1 ![5, 0] (m _ (Or.inr rfl)) rfl rfl)).symm,
    h.2.2 ![4, 2] (by simp [SectionCell, IndexBox.toSet, Fin.forall_fin_two])⟩

example : ∃ data', sectionEdgeFill exGeom ⟨![4, 0], ![6, 2]⟩ 0 1 (fun _ => true) (fun a : Int => some (a + 1)) exPatch (fun x => x 0 + 10 * x 1) = some data' ∧
    data' ![5, 1] = 14 := by
  obtain ⟨data', hr, h⟩ := section_edge_fill_partial exGeom 2 exValid exPatch exPatch_isPatch 0 1 (Or.inr rfl) ⟨![4, 0], ![6, 2]⟩
    (fun x hx => Or.inr ⟨rfl, by have := hx 0; simpa [exGeom] using this.1⟩) (fun _ => true)
    (fun a : Int => some (a + 1)) (fun x => x 0 + 10 * x 1) (fun _ _ _ _ => rfl)
  exact ⟨data', hr, (Option.some.inj (h.1 ![5, 1] (by simp [SectionCell, exPatch, exValid, IndexBox.toSet, Fin.forall_fin_two]) rfl rfl)).symm⟩

end Fub
