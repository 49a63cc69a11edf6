import Verif.Spec.NodalWall
import Verif.Spec.NodalHelm
import Verif.Props.NodalSmooth
import Mathlib.Tactic.Ring
import Mathlib.Tactic.FieldSimp
import Mathlib.Tactic.Linarith

/-!
C185: walls in the nodal pressure equation.
-/

namespace Fub
variable {K : Type}

theorem has_iff (b : NBox) (i j : ℤ) : b.has i j = true ↔ b.Mem i j := by
  simp [NBox.has, NBox.Mem, and_assoc]

theorem bcValue_mirror (off : ℤ) (ho : 0 ≤ off) (d : NBox) (hx : d.ilo + off ≤ d.ihi) (hy : d.jlo + off ≤ d.jhi) (f : Sides Bool) (a : ℤ → ℤ → K) (i j : ℤ)
    (hm : d.grow1.Mem i j) (hg : ¬ (gDomain d f).Mem i j) :
    bcValue off d f a i j = a (mirrorIdx off d.ilo d.ihi f.xlo f.xhi i) (mirrorIdx off d.jlo d.jhi f.ylo f.yhi j) := by
  obtain ⟨h1, h2, h3, h4⟩ := hm
  simp only [NBox.grow1] at h1 h2 h3 h4
  have key : ∀ (P : Prop) [Decidable P] (x y z : K), (P → x = z) → (¬ P → y = z) → (if P then x else y) = z := by
    intro P _ x y z h1 h2; by_cases h : P <;> simp [h] <;> tauto
  have e1 : i = d.ilo - 1 ∨ i = d.ihi + 1 ∨ (i ≠ d.ilo - 1 ∧ i ≠ d.ihi + 1) := by omega
  have e2 : j = d.jlo - 1 ∨ j = d.jhi + 1 ∨ (j ≠ d.jlo - 1 ∧ j ≠ d.jhi + 1) := by omega
  have n1 : ¬ (d.ilo - 1 = d.ihi + 1) := by omega
  have n2 : ¬ (d.jlo - 1 = d.jhi + 1) := by omega
  have n3 : ¬ (d.ihi + 1 = d.ilo - 1) := by omega
  have n4 : ¬ (d.jhi + 1 = d.jlo - 1) := by omega
  have s1 : d.ilo - 1 + 1 + off = d.ilo + off := by ring
  have s2 : d.jlo - 1 + 1 + off = d.jlo + off := by ring
  have s3 : d.ihi + 1 - 1 - off = d.ihi - off := by ring
  have s4 : d.jhi + 1 - 1 - off = d.jhi - off := by ring
  unfold bcValue mirrorIdx
  obtain ⟨a1, a2, a3, a4⟩ := f
  rcases e1 with rfl | rfl | ⟨e1, e1'⟩ <;> rcases e2 with rfl | rfl | ⟨e2, e2'⟩ <;> cases a1 <;> cases a2 <;> cases a3 <;> cases a4 <;>
    simp_all [gDomain, NBox.Mem]

theorem mirror_in (off : ℤ) (ho : 0 ≤ off) (d : NBox) (hx : d.ilo + off ≤ d.ihi) (hy : d.jlo + off ≤ d.jhi) (f : Sides Bool) (i j : ℤ) (hm : d.grow1.Mem i j) :
    (gDomain d f).Mem (mirrorIdx off d.ilo d.ihi f.xlo f.xhi i) (mirrorIdx off d.jlo d.jhi f.ylo f.yhi j) := by
  obtain ⟨h1, h2, h3, h4⟩ := hm
  simp only [NBox.grow1] at h1 h2 h3 h4
  have hline : ∀ (lo hi : ℤ) (flo fhi : Bool) (i : ℤ), lo + off ≤ hi → lo - 1 ≤ i → i ≤ hi + 1 →
      (if flo then lo else lo - 1) ≤ mirrorIdx off lo hi flo fhi i ∧ mirrorIdx off lo hi flo fhi i ≤ (if fhi then hi else hi + 1) := by
    intro lo hi flo fhi i h h1 h2
    unfold mirrorIdx
    cases flo <;> cases fhi <;> simp <;> (try split_ifs) <;> omega
  have hX := hline d.ilo d.ihi f.xlo f.xhi i hx h1 h2
  have hY := hline d.jlo d.jhi f.ylo f.yhi j hy h3 h4
  exact ⟨hX.1, hX.2, hY.1, hY.2⟩

theorem mirror_id (off : ℤ) (d : NBox) (f : Sides Bool) (i j : ℤ) (hg : (gDomain d f).Mem i j) :
    mirrorIdx off d.ilo d.ihi f.xlo f.xhi i = i ∧ mirrorIdx off d.jlo d.jhi f.ylo f.yhi j = j := by
  have hline : ∀ (lo hi : ℤ) (flo fhi : Bool) (i : ℤ), (if flo then lo else lo - 1) ≤ i → i ≤ (if fhi then hi else hi + 1) → mirrorIdx off lo hi flo fhi i = i := by
    intro lo hi flo fhi i h1 h2
    unfold mirrorIdx
    cases flo <;> cases fhi <;> simp at h1 h2 ⊢ <;> omega
  exact ⟨hline _ _ _ _ _ hg.1 hg.2.1, hline _ _ _ _ _ hg.2.2.1 hg.2.2.2⟩

/-- **C185 (ghost values).** After the call all points of the patch and its first ghost layer contain the value of their mirror image, where
sides without a mirror (periodic, or Dirichlet for nodal values) are not touched; nothing else changes. In particular the result does not depend on the order of the loop. -/
theorem bcDoit_spec (off : ℤ) (ho : 0 ≤ off) (vbx d : NBox) (hv : vbx.Inside d) (hx : d.ilo + off ≤ d.ihi) (hy : d.jlo + off ≤ d.jhi) (f : Sides Bool)
    (a : ℤ → ℤ → K) (i j : ℤ) :
    (vbx.grow1.Mem i j → bcDoit off vbx d f a i j = a (mirrorIdx off d.ilo d.ihi f.xlo f.xhi i) (mirrorIdx off d.jlo d.jhi f.ylo f.yhi j)) ∧
    (¬ vbx.grow1.Mem i j → bcDoit off vbx d f a i j = a i j) := by
  obtain ⟨v1, v2, v3, v4⟩ := hv
  have hsub : ∀ i j, vbx.grow1.Mem i j → d.grow1.Mem i j := by
    rintro i j ⟨h1, h2, h3, h4⟩
    simp only [NBox.grow1] at h1 h2 h3 h4
    refine ⟨?_, ?_, ?_, ?_⟩ <;> simp only [NBox.grow1] <;> omega
  unfold bcDoit
  split
  · rename_i hs
    refine ⟨fun hm => ?_, fun _ => rfl⟩
    have : (gDomain d f).Mem i j := by
      simp only [NBox.strictlyHas, Bool.and_eq_true, decide_eq_true_eq] at hs
      obtain ⟨h1, h2, h3, h4⟩ := hm
      simp only [NBox.grow1] at h1 h2 h3 h4
      refine ⟨?_, ?_, ?_, ?_⟩ <;> omega
    rw [(mirror_id off d f i j this).1, (mirror_id off d f i j this).2]
  · have key : ∀ (l : List (ℤ × ℤ)) (a : ℤ → ℤ → K), (∀ p ∈ l, d.grow1.Mem p.1 p.2) → ∀ x y,
        ((x, y) ∈ l → l.foldl (fun a p => if (gDomain d f).has p.1 p.2 then a else set2 a p.1 p.2 (bcValue off d f a p.1 p.2)) a x y =
          a (mirrorIdx off d.ilo d.ihi f.xlo f.xhi x) (mirrorIdx off d.jlo d.jhi f.ylo f.yhi y)) ∧
        ((x, y) ∉ l → l.foldl (fun a p => if (gDomain d f).has p.1 p.2 then a else set2 a p.1 p.2 (bcValue off d f a p.1 p.2)) a x y = a x y) := by
      intro l
      induction l with
      | nil => intro a _ x y; simp
      | cons p l ih =>
        intro a hl x y
        have hp := hl p List.mem_cons_self
        have hl' : ∀ q ∈ l, d.grow1.Mem q.1 q.2 := fun q hq => hl q (List.mem_cons_of_mem _ hq)
        rw [List.foldl_cons]
        by_cases hg : (gDomain d f).has p.1 p.2 = true
        · simp only [hg, if_true]
          have h := ih a hl' x y
          refine ⟨fun hm => ?_, fun hm => h.2 fun h' => hm (List.mem_cons_of_mem _ h')⟩
          by_cases hin : (x, y) ∈ l
          · exact h.1 hin
          · rcases List.mem_cons.1 hm with e | hm
            · rw [h.2 hin]
              have hg' := (has_iff _ _ _).1 hg
              rw [← e] at hg'
              rw [(mirror_id off d f x y hg').1, (mirror_id off d f x y hg').2]
            · exact absurd hm hin
        · have hg' : ¬ (gDomain d f).Mem p.1 p.2 := fun h => hg ((has_iff _ _ _).2 h)
          simp only [hg, if_false, Bool.false_eq_true]
          have hval := bcValue_mirror off ho d hx hy f a p.1 p.2 hp hg'
          have h := ih (set2 a p.1 p.2 (bcValue off d f a p.1 p.2)) hl' x y
          have hne : ∀ u v, (gDomain d f).Mem u v → set2 a p.1 p.2 (bcValue off d f a p.1 p.2) u v = a u v := by
            intro u v huv
            unfold set2
            rw [if_neg]
            rintro ⟨rfl, rfl⟩
            exact hg' huv
          refine ⟨fun hm => ?_, fun hm => ?_⟩
          · by_cases hin : (x, y) ∈ l
            · rw [h.1 hin, hne _ _ (mirror_in off ho d hx hy f x y (hl' _ hin))]
            · rcases List.mem_cons.1 hm with e | hm
              · rw [h.2 hin]
                subst e
                simp only [set2, and_self, if_true]
                exact hval
              · exact absurd hm hin
          · rw [List.mem_cons, not_or] at hm
            rw [h.2 hm.2]
            unfold set2
            rw [if_neg]
            rintro ⟨rfl, rfl⟩
            exact hm.1 rfl
    have hmem : ∀ x y, (x, y) ∈ vbx.grow1.points ↔ vbx.grow1.Mem x y := by
      intro x y
      rw [NBox.points, mem_boxNodes]
      simp [NBox.Mem, and_assoc]
    have h := key vbx.grow1.points a (fun p hp => hsub _ _ ((hmem p.1 p.2).1 hp)) i j
    rw [hmem] at h
    exact h

/-! ## Scaling and masks -/

theorem scaleOn_of [Field K] {b : NBox} {s : K} {a : ℤ → ℤ → K} {i j : ℤ} : scaleOn b s a i j = if b.Mem i j then a i j * s else a i j := by
  unfold scaleOn
  by_cases h : b.Mem i j
  · simp [h, (has_iff b i j).2 h]
  · have h' : ¬ b.has i j = true := fun h' => h ((has_iff b i j).1 h')
    simp [h, h']

/-- The four scalings at a node of the tile. -/
theorem scale_sides [Field K] (s : K) (bx d : NBox) (hb : bx.Tile d) (bc : Sides LinBC) (a : ℤ → ℤ → K) (i j : ℤ) :
    (bx.Mem i j → scaleNeumann s bx d bc a i j = a i j * s ^ wallCount d bc i j) ∧ (¬ bx.Mem i j → scaleNeumann s bx d bc a i j = a i j) := by
  obtain ⟨⟨b1, b2, b3, b4⟩, e1, e2⟩ := hb
  have step : ∀ (w : Bool) (p q : ℤ) (t : NBox) (a : ℤ → ℤ → K),
      (if w && decide (p = q) then scaleOn t s a else a) i j = if (w = true ∧ p = q) ∧ t.Mem i j then a i j * s else a i j := by
    intro w p q t a
    by_cases h : w = true ∧ p = q
    · have h' : (w && decide (p = q)) = true := by simp [h]
      rw [if_pos h', scaleOn_of]
      simp [h]
    · have h' : ¬ (w && decide (p = q)) = true := by simpa using h
      rw [if_neg h', if_neg (fun h2 => h h2.1)]
  unfold scaleNeumann
  simp only [step]
  refine ⟨fun hm => ?_, fun hm => ?_⟩
  · obtain ⟨m1, m2, m3, m4⟩ := hm
    have c1 : ((bc.xlo.isWall = true ∧ bx.ilo = d.ilo) ∧ NBox.Mem ⟨bx.ilo, bx.ilo, bx.jlo, bx.jhi⟩ i j) ↔ (bc.xlo.isWall = true ∧ i = d.ilo) := by
      simp only [NBox.Mem]; constructor
      · rintro ⟨⟨h, h1⟩, h2, h3, -⟩; exact ⟨h, by omega⟩
      · rintro ⟨h, h1⟩; exact ⟨⟨h, by omega⟩, by omega, by omega, m3, m4⟩
    have c2 : ((bc.xhi.isWall = true ∧ bx.ihi = d.ihi) ∧ NBox.Mem ⟨bx.ihi, bx.ihi, bx.jlo, bx.jhi⟩ i j) ↔ (bc.xhi.isWall = true ∧ i = d.ihi) := by
      simp only [NBox.Mem]; constructor
      · rintro ⟨⟨h, h1⟩, h2, h3, -⟩; exact ⟨h, by omega⟩
      · rintro ⟨h, h1⟩; exact ⟨⟨h, by omega⟩, by omega, by omega, m3, m4⟩
    have c3 : ((bc.ylo.isWall = true ∧ bx.jlo = d.jlo) ∧ NBox.Mem ⟨bx.ilo, bx.ihi, bx.jlo, bx.jlo⟩ i j) ↔ (bc.ylo.isWall = true ∧ j = d.jlo) := by
      simp only [NBox.Mem]; constructor
      · rintro ⟨⟨h, h1⟩, -, -, h2, h3⟩; exact ⟨h, by omega⟩
      · rintro ⟨h, h1⟩; exact ⟨⟨h, by omega⟩, m1, m2, by omega, by omega⟩
    have c4 : ((bc.yhi.isWall = true ∧ bx.jhi = d.jhi) ∧ NBox.Mem ⟨bx.ilo, bx.ihi, bx.jhi, bx.jhi⟩ i j) ↔ (bc.yhi.isWall = true ∧ j = d.jhi) := by
      simp only [NBox.Mem]; constructor
      · rintro ⟨⟨h, h1⟩, -, -, h2, h3⟩; exact ⟨h, by omega⟩
      · rintro ⟨h, h1⟩; exact ⟨⟨h, by omega⟩, m1, m2, by omega, by omega⟩
    simp only [c1, c2, c3, c4]
    unfold wallCount
    split_ifs <;> simp <;> ring
  · have n1 : ∀ t : NBox, t.Inside bx → ¬ t.Mem i j := by
      rintro t ⟨h1, h2, h3, h4⟩ ⟨h5, h6, h7, h8⟩
      exact hm ⟨by omega, by omega, by omega, by omega⟩
    have i1 : NBox.Inside ⟨bx.ilo, bx.ilo, bx.jlo, bx.jhi⟩ bx := ⟨le_refl _, e1, le_refl _, le_refl _⟩
    have i2 : NBox.Inside ⟨bx.ihi, bx.ihi, bx.jlo, bx.jhi⟩ bx := ⟨e1, le_refl _, le_refl _, le_refl _⟩
    have i3 : NBox.Inside ⟨bx.ilo, bx.ihi, bx.jlo, bx.jlo⟩ bx := ⟨le_refl _, le_refl _, le_refl _, e2⟩
    have i4 : NBox.Inside ⟨bx.ilo, bx.ihi, bx.jhi, bx.jhi⟩ bx := ⟨le_refl _, le_refl _, e2, le_refl _⟩
    simp only [n1 _ i1, n1 _ i2, n1 _ i3, n1 _ i4, and_false, if_false]

/-- **C185 (ghost values).** On a patch `vbx` (nodes) of the domain `d`, the nodal field is mirrored at walls and inflows and the coefficients are mirrored at all sides that are
not periodic; the other values within one cell of the patch are kept. -/
theorem ghost_mirror (d vbx : NBox) (hx : d.ilo < d.ihi) (hy : d.jlo < d.jhi) (hv : vbx.Inside d) (bc : Sides LinBC) (a : ℤ → ℤ → K) (i j : ℤ) :
    (vbx.grow1.Mem i j → applybcNd vbx d bc a i j =
      a (mirrorIdx 1 d.ilo d.ihi (bc.xlo = .neumann ∨ bc.xlo = .inflow) (bc.xhi = .neumann ∨ bc.xhi = .inflow) i)
        (mirrorIdx 1 d.jlo d.jhi (bc.ylo = .neumann ∨ bc.ylo = .inflow) (bc.yhi = .neumann ∨ bc.yhi = .inflow) j)) ∧
    (vbx.cells.grow1.Mem i j → fillbcCc vbx.cells d.cells bc a i j =
      a (mirrorIdx 0 d.ilo (d.ihi - 1) (bc.xlo ≠ .periodic) (bc.xhi ≠ .periodic) i) (mirrorIdx 0 d.jlo (d.jhi - 1) (bc.ylo ≠ .periodic) (bc.yhi ≠ .periodic) j)) := by
  have w : ∀ b : LinBC, b.isWall = decide (b = .neumann ∨ b = .inflow) := by intro b; cases b <;> decide
  have p : ∀ b : LinBC, (b != .periodic) = decide (b ≠ .periodic) := by intro b; cases b <;> decide
  obtain ⟨v1, v2, v3, v4⟩ := hv
  refine ⟨fun h => ?_, fun h => ?_⟩
  · have := (bcDoit_spec 1 (by norm_num) vbx d ⟨v1, v2, v3, v4⟩ (by omega) (by omega) ⟨bc.xlo.isWall, bc.xhi.isWall, bc.ylo.isWall, bc.yhi.isWall⟩ a i j).1 h
    simp only [w] at this
    simpa only [applybcNd, w] using this
  · have := (bcDoit_spec 0 (le_refl _) vbx.cells d.cells ⟨v1, by simp only [NBox.cells]; omega, v3, by simp only [NBox.cells]; omega⟩ (by simp only [NBox.cells]; omega)
      (by simp only [NBox.cells]; omega) ⟨bc.xlo != .periodic, bc.xhi != .periodic, bc.ylo != .periodic, bc.yhi != .periodic⟩ a i j).1 h
    simp only [p] at this
    unfold fillbcCc
    simp only [p]
    exact this

/-- **C185 (right-hand side).** Every node of the tile is multiplied by two for each wall it lies on, exactly once whatever the tiling, and nothing else changes; the inverse
scaling undoes it. -/
theorem impose_neumann [Field K] [CharZero K] (bx d : NBox) (hb : bx.Tile d) (bc : Sides LinBC) (a : ℤ → ℤ → K) (i j : ℤ) :
    (bx.Mem i j → scaleNeumann 2 bx d bc a i j = a i j * 2 ^ wallCount d bc i j) ∧ (¬ bx.Mem i j → scaleNeumann 2 bx d bc a i j = a i j) ∧
    unimposeNeumann bx d bc (scaleNeumann 2 bx d bc a) i j = a i j := by
  refine ⟨(scale_sides 2 bx d hb bc a i j).1, (scale_sides 2 bx d hb bc a i j).2, ?_⟩
  unfold unimposeNeumann
  by_cases hm : bx.Mem i j
  · rw [(scale_sides (1 / 2) bx d hb bc _ i j).1 hm, (scale_sides 2 bx d hb bc a i j).1 hm, mul_assoc, ← mul_pow]
    norm_num
  · rw [(scale_sides (1 / 2) bx d hb bc _ i j).2 hm, (scale_sides 2 bx d hb bc a i j).2 hm]

/-- **C185 (weights).** The weight of a node in inner products is the share of its dual cell inside of the domain: a half for each wall, zero for nodes owned by another patch. -/
theorem dot_mask [Field K] (bx d : NBox) (hb : bx.Tile d) (bc : Sides LinBC) (omsk : ℤ → ℤ → ℤ) (old : ℤ → ℤ → K) (i j : ℤ) :
    (bx.Mem i j → setDotMask bx d bc omsk old i j = (omsk i j : K) * (1 / 2) ^ wallCount d bc i j) ∧ (¬ bx.Mem i j → setDotMask bx d bc omsk old i j = old i j) := by
  have h := scale_sides (1 / 2 : K) bx d hb bc (fun i j => if bx.has i j then (omsk i j : K) else old i j) i j
  have e : setDotMask bx d bc omsk old i j = scaleNeumann (1 / 2 : K) bx d bc (fun i j => if bx.has i j then (omsk i j : K) else old i j) i j := rfl
  rw [e]
  refine ⟨fun hm => ?_, fun hm => ?_⟩
  · rw [h.1 hm, if_pos ((has_iff _ _ _).2 hm)]
  · rw [h.2 hm, if_neg (fun h => hm ((has_iff _ _ _).1 h))]

/-- **C185 (Dirichlet nodes).** A node of the tile is masked exactly if it was masked before, touches a cell with the value 1 of the given mask, or lies on a Dirichlet side. -/
theorem dirichlet_mask (bx d : NBox) (hb : bx.Tile d) (bc : Sides LinBC) (omsk : ℤ → ℤ → ℤ) (old : ℤ → ℤ → Bool) (i j : ℤ) :
    (bx.Mem i j → (setDirichletMask bx d bc omsk old i j = true ↔
      old i j = true ∨ (∃ a ∈ [i - 1, i], ∃ b ∈ [j - 1, j], omsk a b = 1) ∨ OnDirichlet d bc i j)) ∧
    (¬ bx.Mem i j → setDirichletMask bx d bc omsk old i j = old i j) := by
  obtain ⟨⟨b1, b2, b3, b4⟩, e1, e2⟩ := hb
  have step : ∀ (w : Bool) (p q : ℤ) (t : NBox) (a : ℤ → ℤ → Bool),
      (if w && decide (p = q) then maskOn t a else a) i j = true ↔ ((w = true ∧ p = q) ∧ t.Mem i j) ∨ a i j = true := by
    intro w p q t a
    by_cases h : w = true ∧ p = q
    · have h' : (w && decide (p = q)) = true := by simp [h]
      rw [if_pos h', maskOn, Bool.or_eq_true, has_iff]
      simp [h]
    · have h' : ¬ (w && decide (p = q)) = true := by simpa using h
      rw [if_neg h']
      tauto
  have main : setDirichletMask bx d bc omsk old i j = true ↔
      ((bc.yhi = .dirichlet ∧ bx.jhi = d.jhi) ∧ NBox.Mem ⟨bx.ilo, bx.ihi, bx.jhi, bx.jhi⟩ i j) ∨
      ((bc.ylo = .dirichlet ∧ bx.jlo = d.jlo) ∧ NBox.Mem ⟨bx.ilo, bx.ihi, bx.jlo, bx.jlo⟩ i j) ∨
      ((bc.xhi = .dirichlet ∧ bx.ihi = d.ihi) ∧ NBox.Mem ⟨bx.ihi, bx.ihi, bx.jlo, bx.jhi⟩ i j) ∨
      ((bc.xlo = .dirichlet ∧ bx.ilo = d.ilo) ∧ NBox.Mem ⟨bx.ilo, bx.ilo, bx.jlo, bx.jhi⟩ i j) ∨
      (if bx.has i j && !old i j then decide (omsk (i - 1) (j - 1) = 1) || decide (omsk i (j - 1) = 1) || decide (omsk (i - 1) j = 1) || decide (omsk i j = 1)
        else old i j) = true := by
    unfold setDirichletMask
    simp only [step, beq_iff_eq]
  simp only [NBox.Mem] at main
  refine ⟨fun hm => ?_, fun hm => ?_⟩
  · have hh := (has_iff bx i j).2 hm
    obtain ⟨m1, m2, m3, m4⟩ := hm
    rw [main]
    simp only [hh, Bool.true_and, OnDirichlet, List.mem_cons, List.not_mem_nil, or_false, exists_eq_or_imp, exists_eq_left]
    have c1 : ((bc.yhi = .dirichlet ∧ bx.jhi = d.jhi) ∧ bx.ilo ≤ i ∧ i ≤ bx.ihi ∧ bx.jhi ≤ j ∧ j ≤ bx.jhi) ↔ (bc.yhi = .dirichlet ∧ j = d.jhi) := by
      constructor
      · rintro ⟨⟨h, h1⟩, -, -, h2, h3⟩; exact ⟨h, by omega⟩
      · rintro ⟨h, h1⟩; exact ⟨⟨h, by omega⟩, m1, m2, by omega, by omega⟩
    have c2 : ((bc.ylo = .dirichlet ∧ bx.jlo = d.jlo) ∧ bx.ilo ≤ i ∧ i ≤ bx.ihi ∧ bx.jlo ≤ j ∧ j ≤ bx.jlo) ↔ (bc.ylo = .dirichlet ∧ j = d.jlo) := by
      constructor
      · rintro ⟨⟨h, h1⟩, -, -, h2, h3⟩; exact ⟨h, by omega⟩
      · rintro ⟨h, h1⟩; exact ⟨⟨h, by omega⟩, m1, m2, by omega, by omega⟩
    have c3 : ((bc.xhi = .dirichlet ∧ bx.ihi = d.ihi) ∧ bx.ihi ≤ i ∧ i ≤ bx.ihi ∧ bx.jlo ≤ j ∧ j ≤ bx.jhi) ↔ (bc.xhi = .dirichlet ∧ i = d.ihi) := by
      constructor
      · rintro ⟨⟨h, h1⟩, h2, h3, -⟩; exact ⟨h, by omega⟩
      · rintro ⟨h, h1⟩; exact ⟨⟨h, by omega⟩, by omega, by omega, m3, m4⟩
    have c4 : ((bc.xlo = .dirichlet ∧ bx.ilo = d.ilo) ∧ bx.ilo ≤ i ∧ i ≤ bx.ilo ∧ bx.jlo ≤ j ∧ j ≤ bx.jhi) ↔ (bc.xlo = .dirichlet ∧ i = d.ilo) := by
      constructor
      · rintro ⟨⟨h, h1⟩, h2, h3, -⟩; exact ⟨h, by omega⟩
      · rintro ⟨h, h1⟩; exact ⟨⟨h, by omega⟩, by omega, by omega, m3, m4⟩
    rw [c1, c2, c3, c4]
    have fin : ∀ A B C D o1 o2 o3 o4 : Prop, (A ∨ B ∨ C ∨ D ∨ ((o1 ∨ o2) ∨ o3) ∨ o4) → ((o1 ∨ o3) ∨ o2 ∨ o4) ∨ D ∨ C ∨ B ∨ A := by
      rintro A B C D o1 o2 o3 o4 (h | h | h | h | ((h | h) | h) | h) <;> simp [h]
    have fin' : ∀ A B C D o1 o2 o3 o4 : Prop, (((o1 ∨ o3) ∨ o2 ∨ o4) ∨ D ∨ C ∨ B ∨ A) → (A ∨ B ∨ C ∨ D ∨ ((o1 ∨ o2) ∨ o3) ∨ o4) := by
      rintro A B C D o1 o2 o3 o4 (((h | h) | h | h) | h | h | h | h) <;> simp [h]
    cases hold : old i j
    · simp only [Bool.not_false, if_true, Bool.or_eq_true, decide_eq_true_eq, Bool.false_eq_true, false_or]
      exact ⟨fin _ _ _ _ _ _ _ _, fin' _ _ _ _ _ _ _ _⟩
    · simp
  · have hh : bx.has i j = false := by
      rw [Bool.eq_false_iff]; exact fun h => hm ((has_iff bx i j).1 h)
    rw [Bool.eq_iff_iff, main]
    simp only [hh, Bool.false_and, Bool.false_eq_true, if_false]
    have hm' : ¬ (bx.ilo ≤ i ∧ i ≤ bx.ihi ∧ bx.jlo ≤ j ∧ j ≤ bx.jhi) := hm
    constructor
    · rintro (⟨-, h⟩ | ⟨-, h⟩ | ⟨-, h⟩ | ⟨-, h⟩ | h)
      · exact absurd (by omega) hm'
      · exact absurd (by omega) hm'
      · exact absurd (by omega) hm'
      · exact absurd (by omega) hm'
      · exact h
    · exact fun h => .inr (.inr (.inr (.inr h)))

/-- **C185 (coarse-fine nodes).** A node is coarse (fine) exactly if all four cells around it are coarse (fine), for cell masks with the values 0 and 1. -/
theorem nodal_mask (cmsk : ℤ → ℤ → ℤ) (h : ∀ i j, cmsk i j = 0 ∨ cmsk i j = 1) (i j : ℤ) :
    (nodalMask cmsk i j = 0 ↔ ∀ a ∈ [i - 1, i], ∀ b ∈ [j - 1, j], cmsk a b = 0) ∧ (nodalMask cmsk i j = 2 ↔ ∀ a ∈ [i - 1, i], ∀ b ∈ [j - 1, j], cmsk a b = 1) ∧
    nodalMask cmsk i j ∈ [0, 1, 2] := by
  unfold nodalMask
  rcases h (i - 1) (j - 1) with h1 | h1 <;> rcases h i (j - 1) with h2 | h2 <;> rcases h (i - 1) j with h3 | h3 <;> rcases h i j with h4 | h4 <;>
    simp [h1, h2, h3, h4]

/-! ## The operator at walls -/

theorem wall_div_core [Field K] [CharZero K] (A1 A2 B1 B2 : Prop) [Decidable A1] [Decidable A2] [Decidable B1] [Decidable B2] (nx : ¬ (A1 ∧ A2)) (ny : ¬ (B1 ∧ B2))
    (dx dy u1 u2 u3 u4 v1 v2 v3 v4 : K) (mx : A1 ∨ A2 → (u1 = -u2 ∧ u3 = -u4) ∧ v1 = v2 ∧ v3 = v4) (my : B1 ∨ B2 → (v1 = -v3 ∧ v2 = -v4) ∧ u1 = u3 ∧ u2 = u4) :
    ((((if A2 ∨ B1 then 0 else u2) + if A2 ∨ B2 then 0 else u4) / 2 - ((if A1 ∨ B1 then 0 else u1) + if A1 ∨ B2 then 0 else u3) / 2) * dx
      + (((if A1 ∨ B2 then 0 else v3) + if A2 ∨ B2 then 0 else v4) / 2 - ((if A1 ∨ B1 then 0 else v1) + if A2 ∨ B1 then 0 else v2) / 2) * dy)
      * 2 ^ ((if A1 then 1 else 0) + (if A2 then 1 else 0) + (if B1 then 1 else 0) + if B2 then 1 else 0) =
    ((u2 + u4) / 2 - (u1 + u3) / 2) * dx + ((v3 + v4) / 2 - (v1 + v2) / 2) * dy := by
  by_cases hA1 : A1 <;> by_cases hA2 : A2
  · exact absurd ⟨hA1, hA2⟩ nx
  all_goals by_cases hB1 : B1 <;> by_cases hB2 : B2
  all_goals first
    | (exfalso; exact ny (And.intro (by assumption) (by assumption)))
    | skip
  all_goals simp only [hA1, hA2, hB1, hB2, or_true, true_or, or_false, false_or, forall_true_left] at mx my
  all_goals simp only [hA1, hA2, hB1, hB2, if_true, if_false, or_true, true_or, or_false]
  all_goals (try obtain ⟨⟨e1, e2⟩, e3, e4⟩ := mx) 
  all_goals (try obtain ⟨⟨w1, w2⟩, w3, w4⟩ := my) 
  all_goals first
    | ring1
    | (simp only [e1, e2, e3, e4, w2, w4]; ring1)
    | (simp only [e1, e2, e3, e4]; ring1)
    | (simp only [w1, w2, w3, w4]; ring1)

/-- Algebra of `wall_projection`: a flux whose normal component is odd and whose tangential component is even at the walls has twice the divergence of the flux
without ghost values, for each wall. -/
theorem wall_div [Field K] [CharZero K] (d : NBox) (bc : Sides LinBC) (dxinv dyinv : K) (u v : ℤ → ℤ → K) (i j : ℤ) (hx : d.ilo < d.ihi) (hy : d.jlo < d.jhi) (hm : d.Mem i j)
    (mx : (bc.xlo.isWall = true ∧ i = d.ilo) ∨ (bc.xhi.isWall = true ∧ i = d.ihi) →
      (u (i - 1) (j - 1) = -u i (j - 1) ∧ u (i - 1) j = -u i j) ∧ v (i - 1) (j - 1) = v i (j - 1) ∧ v (i - 1) j = v i j)
    (my : (bc.ylo.isWall = true ∧ j = d.jlo) ∨ (bc.yhi.isWall = true ∧ j = d.jhi) →
      (v (i - 1) (j - 1) = -v (i - 1) j ∧ v i (j - 1) = -v i j) ∧ u (i - 1) (j - 1) = u (i - 1) j ∧ u i (j - 1) = u i j) :
    nodeDiv dxinv dyinv (wallZero d bc u) (wallZero d bc v) i j * 2 ^ wallCount d bc i j = nodeDiv dxinv dyinv u v i j := by
  obtain ⟨m1, m2, m3, m4⟩ := hm
  revert mx my
  unfold nodeDiv wallZero wallCount
  have a1 : ((i - 1 < d.ilo ∧ bc.xlo.isWall = true) ↔ (bc.xlo.isWall = true ∧ i = d.ilo)) := by exact ⟨fun h => ⟨h.2, by omega⟩, fun h => ⟨by omega, h.1⟩⟩
  have a2 : ((i < d.ilo ∧ bc.xlo.isWall = true) ↔ False) := by exact ⟨fun h => by omega, fun h => h.elim⟩
  have a3 : ((d.ihi ≤ i ∧ bc.xhi.isWall = true) ↔ (bc.xhi.isWall = true ∧ i = d.ihi)) := by exact ⟨fun h => ⟨h.2, by omega⟩, fun h => ⟨by omega, h.1⟩⟩
  have a4 : ((d.ihi ≤ i - 1 ∧ bc.xhi.isWall = true) ↔ False) := by exact ⟨fun h => by omega, fun h => h.elim⟩
  have b1 : ((j - 1 < d.jlo ∧ bc.ylo.isWall = true) ↔ (bc.ylo.isWall = true ∧ j = d.jlo)) := by exact ⟨fun h => ⟨h.2, by omega⟩, fun h => ⟨by omega, h.1⟩⟩
  have b2 : ((j < d.jlo ∧ bc.ylo.isWall = true) ↔ False) := by exact ⟨fun h => by omega, fun h => h.elim⟩
  have b3 : ((d.jhi ≤ j ∧ bc.yhi.isWall = true) ↔ (bc.yhi.isWall = true ∧ j = d.jhi)) := by exact ⟨fun h => ⟨h.2, by omega⟩, fun h => ⟨by omega, h.1⟩⟩
  have b4 : ((d.jhi ≤ j - 1 ∧ bc.yhi.isWall = true) ↔ False) := by exact ⟨fun h => by omega, fun h => h.elim⟩
  simp only [a1, a2, a3, a4, b1, b2, b3, b4, false_or, or_false]
  have nx : ¬ ((bc.xlo.isWall = true ∧ i = d.ilo) ∧ (bc.xhi.isWall = true ∧ i = d.ihi)) := by omega
  have ny : ¬ ((bc.ylo.isWall = true ∧ j = d.jlo) ∧ (bc.yhi.isWall = true ∧ j = d.jhi)) := by omega
  clear a1 a2 a3 a4 b1 b2 b3 b4
  intro mx my
  exact wall_div_core _ _ _ _ nx ny _ _ _ _ _ _ _ _ _ _ mx my

/-- **C185 (projection).** At every node of the domain, also on walls and in corners, the divergence that the right-hand side uses of the gradient field `σ grad φ` with zero
ghost values is what the operator gives for `φ`. So subtracting the gradient of the solution removes the divergence exactly, up to the walls.
`vbx` are the nodes of any patch and `bx` a tile of them. -/
theorem wall_projection [Field K] [CharZero K] (d vbx bx : NBox) (hx : d.ilo < d.ihi) (hy : d.jlo < d.jhi) (hv : vbx.Inside d) (hb : bx.Tile d) (bc : Sides LinBC)
    (sig phi : ℤ → ℤ → K) (msk : ℤ → ℤ → Bool) (dxinv dyinv : K) (hm : ∀ i j, d.Mem i j → OnDirichlet d bc i j → msk i j = true) (i j : ℤ) (hi : bx.Mem i j)
    (hiv : vbx.Mem i j) :
    let s := fillbcCc vbx.cells d.cells bc sig
    let x := applybcNd vbx d bc phi
    compRhs dxinv dyinv bx d bc msk (wallZero d bc fun i j => s i j * cellGradX dxinv x i j) (wallZero d bc fun i j => s i j * cellGradY dyinv x i j) i j =
      helmApply ⟨s, fun _ _ => 0, fun _ _ => 0, fun _ _ => 0, dxinv, dyinv⟩ msk x i j := by
  intro s x
  obtain ⟨v1, v2, v3, v4⟩ := hv
  obtain ⟨p1, p2, p3, p4⟩ := hiv
  unfold compRhs
  rw [(scale_sides 2 bx d hb bc _ i j).1 hi, node_divergence, helm_apply_flux]
  cases hmi : msk i j with
  | true => simp
  | false =>
    simp only [Bool.false_eq_true, if_false, helmFluxX, helmFluxY, zero_mul, add_zero]
    have hd : ¬ OnDirichlet d bc i j := fun h => by rw [hm i j ⟨by omega, by omega, by omega, by omega⟩ h] at hmi; simp at hmi
    simp only [OnDirichlet, not_or, not_and] at hd
    obtain ⟨d1, d2, d3, d4⟩ := hd
    -- ghost values of nodes and cells
    have hX : ∀ a b, i - 1 ≤ a → a ≤ i + 1 → j - 1 ≤ b → b ≤ j + 1 →
        x a b = phi (mirrorIdx 1 d.ilo d.ihi bc.xlo.isWall bc.xhi.isWall a) (mirrorIdx 1 d.jlo d.jhi bc.ylo.isWall bc.yhi.isWall b) := by
      intro a b h1 h2 h3 h4
      exact (bcDoit_spec 1 (by norm_num) vbx d ⟨v1, v2, v3, v4⟩ (by omega) (by omega) _ phi a b).1
        ⟨by simp only [NBox.grow1]; omega, by simp only [NBox.grow1]; omega, by simp only [NBox.grow1]; omega, by simp only [NBox.grow1]; omega⟩
    have hS : ∀ a b, i - 1 ≤ a → a ≤ i → j - 1 ≤ b → b ≤ j →
        s a b = sig (mirrorIdx 0 d.ilo (d.ihi - 1) (bc.xlo != .periodic) (bc.xhi != .periodic) a) (mirrorIdx 0 d.jlo (d.jhi - 1) (bc.ylo != .periodic) (bc.yhi != .periodic) b) := by
      intro a b h1 h2 h3 h4
      exact (bcDoit_spec 0 (le_refl _) vbx.cells d.cells ⟨v1, by simp only [NBox.cells]; omega, v3, by simp only [NBox.cells]; omega⟩ (by simp only [NBox.cells]; omega)
        (by simp only [NBox.cells]; omega) _ sig a b).1
        ⟨by simp only [NBox.grow1, NBox.cells]; omega, by simp only [NBox.grow1, NBox.cells]; omega, by simp only [NBox.grow1, NBox.cells]; omega, by simp only [NBox.grow1, NBox.cells]; omega⟩
    -- the four mirror rules
    have mxl : bc.xlo.isWall = true → i = d.ilo → (∀ b, j - 1 ≤ b → b ≤ j + 1 → x (i - 1) b = x (i + 1) b) ∧ ∀ b, j - 1 ≤ b → b ≤ j → s (i - 1) b = s i b := by
      intro w e
      have w' : (bc.xlo != .periodic) = true := by revert w; cases bc.xlo <;> decide
      refine ⟨fun b h1 h2 => ?_, fun b h1 h2 => ?_⟩
      · rw [hX _ _ (by omega) (by omega) h1 h2, hX _ _ (by omega) (by omega) h1 h2]
        have e1 : mirrorIdx 1 d.ilo d.ihi bc.xlo.isWall bc.xhi.isWall (i - 1) = i + 1 := by unfold mirrorIdx; rw [if_pos ⟨by omega, w⟩]; omega
        have e2 : mirrorIdx 1 d.ilo d.ihi bc.xlo.isWall bc.xhi.isWall (i + 1) = i + 1 := by
          unfold mirrorIdx; rw [if_neg (by omega), if_neg (by omega)]
        rw [e1, e2]
      · rw [hS _ _ (by omega) (by omega) h1 h2, hS _ _ (by omega) (by omega) h1 h2]
        congr 1
        unfold mirrorIdx
        rw [if_pos ⟨by omega, w'⟩, if_neg (by omega), if_neg (by omega)]
        omega
    have mxh : bc.xhi.isWall = true → i = d.ihi → (∀ b, j - 1 ≤ b → b ≤ j + 1 → x (i + 1) b = x (i - 1) b) ∧ ∀ b, j - 1 ≤ b → b ≤ j → s i b = s (i - 1) b := by
      intro w e
      have w' : (bc.xhi != .periodic) = true := by revert w; cases bc.xhi <;> decide
      refine ⟨fun b h1 h2 => ?_, fun b h1 h2 => ?_⟩
      · rw [hX _ _ (by omega) (by omega) h1 h2, hX _ _ (by omega) (by omega) h1 h2]
        congr 1
        unfold mirrorIdx
        rw [if_neg (by omega), if_pos ⟨by omega, w⟩, if_neg (by omega), if_neg (by omega)]
        omega
      · rw [hS _ _ (by omega) (by omega) h1 h2, hS _ _ (by omega) (by omega) h1 h2]
        congr 1
        unfold mirrorIdx
        rw [if_neg (by omega), if_pos ⟨by omega, w'⟩, if_neg (by omega), if_neg (by omega)]
        omega
    have myl : bc.ylo.isWall = true → j = d.jlo → (∀ a, i - 1 ≤ a → a ≤ i + 1 → x a (j - 1) = x a (j + 1)) ∧ ∀ a, i - 1 ≤ a → a ≤ i → s a (j - 1) = s a j := by
      intro w e
      have w' : (bc.ylo != .periodic) = true := by revert w; cases bc.ylo <;> decide
      refine ⟨fun b h1 h2 => ?_, fun b h1 h2 => ?_⟩
      · rw [hX _ _ h1 h2 (by omega) (by omega), hX _ _ h1 h2 (by omega) (by omega)]
        congr 1
        unfold mirrorIdx
        rw [if_pos ⟨by omega, w⟩, if_neg (by omega), if_neg (by omega)]
        omega
      · rw [hS _ _ h1 h2 (by omega) (by omega), hS _ _ h1 h2 (by omega) (by omega)]
        congr 1
        unfold mirrorIdx
        rw [if_pos ⟨by omega, w'⟩, if_neg (by omega), if_neg (by omega)]
        omega
    have myh : bc.yhi.isWall = true → j = d.jhi → (∀ a, i - 1 ≤ a → a ≤ i + 1 → x a (j + 1) = x a (j - 1)) ∧ ∀ a, i - 1 ≤ a → a ≤ i → s a j = s a (j - 1) := by
      intro w e
      have w' : (bc.yhi != .periodic) = true := by revert w; cases bc.yhi <;> decide
      refine ⟨fun b h1 h2 => ?_, fun b h1 h2 => ?_⟩
      · rw [hX _ _ h1 h2 (by omega) (by omega), hX _ _ h1 h2 (by omega) (by omega)]
        congr 1
        unfold mirrorIdx
        rw [if_neg (by omega), if_pos ⟨by omega, w⟩, if_neg (by omega), if_neg (by omega)]
        omega
      · rw [hS _ _ h1 h2 (by omega) (by omega), hS _ _ h1 h2 (by omega) (by omega)]
        congr 1
        unfold mirrorIdx
        rw [if_neg (by omega), if_pos ⟨by omega, w'⟩, if_neg (by omega), if_neg (by omega)]
        omega
    have ex : helmFluxX ⟨s, fun _ _ => 0, fun _ _ => 0, fun _ _ => 0, dxinv, dyinv⟩ x = fun i j => s i j * cellGradX dxinv x i j := by
      funext a b; simp [helmFluxX]
    have ey : helmFluxY ⟨s, fun _ _ => 0, fun _ _ => 0, fun _ _ => 0, dxinv, dyinv⟩ x = fun i j => s i j * cellGradY dyinv x i j := by
      funext a b; simp [helmFluxY]
    rw [ex, ey]
    have ex1 : ((bc.xlo.isWall = true ∧ i = d.ilo) ∨ (bc.xhi.isWall = true ∧ i = d.ihi)) →
        (∀ b, j - 1 ≤ b → b ≤ j + 1 → x (i - 1) b = x (i + 1) b) ∧ ∀ b, j - 1 ≤ b → b ≤ j → s (i - 1) b = s i b := by
      rintro (h | h)
      · exact mxl h.1 h.2
      · exact ⟨fun b h1 h2 => ((mxh h.1 h.2).1 b h1 h2).symm, fun b h1 h2 => ((mxh h.1 h.2).2 b h1 h2).symm⟩
    have ey1 : ((bc.ylo.isWall = true ∧ j = d.jlo) ∨ (bc.yhi.isWall = true ∧ j = d.jhi)) →
        (∀ a, i - 1 ≤ a → a ≤ i + 1 → x a (j - 1) = x a (j + 1)) ∧ ∀ a, i - 1 ≤ a → a ≤ i → s a (j - 1) = s a j := by
      rintro (h | h)
      · exact myl h.1 h.2
      · exact ⟨fun b h1 h2 => ((myh h.1 h.2).1 b h1 h2).symm, fun b h1 h2 => ((myh h.1 h.2).2 b h1 h2).symm⟩
    refine wall_div d bc dxinv dyinv _ _ i j hx hy ⟨by omega, by omega, by omega, by omega⟩ (fun h => ?_) (fun h => ?_)
    · obtain ⟨hx1, hs1⟩ := ex1 h
      have x1 := hx1 (j - 1) (by omega) (by omega)
      have x2 := hx1 j (by omega) (by omega)
      have x3 := hx1 (j + 1) (by omega) (by omega)
      have s1 := hs1 (j - 1) (by omega) (by omega)
      have s2 := hs1 j (by omega) (by omega)
      refine ⟨⟨?_, ?_⟩, ?_, ?_⟩ <;> simp only [cellGradX, cellGradY, sub_add_cancel, x1, x2, x3, s1, s2] <;> ring
    · obtain ⟨hx1, hs1⟩ := ey1 h
      have x1 := hx1 (i - 1) (by omega) (by omega)
      have x2 := hx1 i (by omega) (by omega)
      have x3 := hx1 (i + 1) (by omega) (by omega)
      have s1 := hs1 (i - 1) (by omega) (by omega)
      have s2 := hs1 i (by omega) (by omega)
      refine ⟨⟨?_, ?_⟩, ?_, ?_⟩ <;> simp only [cellGradX, cellGradY, sub_add_cancel, x1, x2, x3, s1, s2] <;> ring

/-! ## Concrete cases -/

/-- The nodes of a domain with four by three cells. -/
def dom43 : NBox := ⟨0, 4, 0, 3⟩

/-- A patch in the lower right corner of it. -/
def patch43 : NBox := ⟨2, 4, 0, 2⟩

/-- Walls left and right, an inflow below, a Dirichlet side above. -/
def dom43BC : Sides LinBC := ⟨.neumann, .neumann, .inflow, .dirichlet⟩

/-- Different values on all nodes. -/
def node43 (i j : ℤ) : ℚ := 10 * (i : ℚ) + (j : ℚ)

-- a tile of a patch in a corner with two walls: the hypotheses of the theorems on scaling, masks and projection
example : patch43.Tile dom43 ∧ patch43.Inside dom43 ∧ patch43.Mem 4 0 ∧ wallCount dom43 dom43BC 4 0 = 2 ∧ wallCount dom43 dom43BC 4 3 = 1 ∧
    (∀ i j, dom43.Mem i j → OnDirichlet dom43 dom43BC i j → decide (j = 3) = true) := by
  refine ⟨by unfold NBox.Tile NBox.Inside; decide, by unfold NBox.Inside; decide, by decide, by decide, by decide, ?_⟩
  intro i j _ h
  simpa [OnDirichlet, dom43BC, dom43] using h

-- the corner of the patch: mirrored in both directions, and scaled twice
example : applybcNd patch43 dom43 dom43BC node43 5 (-1) = node43 3 1 ∧ applybcNd patch43 dom43 dom43BC node43 5 1 = node43 3 1 ∧
    applybcNd patch43 dom43 dom43BC node43 1 1 = node43 1 1 ∧ fillbcCc patch43.cells dom43.cells dom43BC node43 4 (-1) = node43 3 0 ∧
    scaleNeumann 2 patch43 dom43 dom43BC node43 4 0 = 160 ∧ setDotMask patch43 dom43 dom43BC (fun _ _ => 1) (fun _ _ => (0 : ℚ)) 4 0 = 1 / 4 := by decide +kernel

-- masks
example : setDirichletMask ⟨2, 4, 1, 3⟩ dom43 dom43BC (fun _ _ => 0) (fun _ _ => false) 3 3 = true ∧
    setDirichletMask ⟨2, 4, 1, 3⟩ dom43 dom43BC (fun _ _ => 0) (fun _ _ => false) 4 2 = false ∧
    nodalMask (fun i _ => if i < 2 then 0 else 1) 2 5 = 1 ∧ nodalMask (fun i _ => if i < 2 then 0 else 1) 3 5 = 2 := by decide +kernel

end Fub
