import Verif.Model.Context
import Verif.Lemmas.Subcycle
import Mathlib.Tactic.Ring

namespace Fub

section
variable {K G Opt Meth Cb : Type} [Field K] [LinearOrder K]

/-- pointwise effect of a step of level `l` by `dt` on the clocks -/
structure ClockStep (ratio : Nat → Nat) (l : Nat) (dt : K) (c c' : Ctx K G Opt Meth Cb) : Prop where
  script : c'.script = []
  maxL : c'.maxLevels = c.maxLevels
  hlen : c'.hier.length = c.hier.length
  dlen : c'.data.length = c.data.length
  below : ∀ i d, i < l → c.data[i]? = some d → ∃ d', c'.data[i]? = some d' ∧ d'.time = d.time ∧ d'.cycles = d.cycles
  above : ∀ i d, l ≤ i → c.data[i]? = some d → ∃ d', c'.data[i]? = some d' ∧ d'.time = d.time + dt ∧
    d'.cycles = d.cycles + (∏ j ∈ Finset.Ioc l i, ratio j : Nat)

/-- clocks are unchanged -/
structure ClockSame (c c' : Ctx K G Opt Meth Cb) : Prop where
  script : c'.script = []
  maxL : c'.maxLevels = c.maxLevels
  hlen : c'.hier.length = c.hier.length
  dlen : c'.data.length = c.data.length
  same : ∀ (i : Nat) d, c.data[i]? = some d → ∃ d', c'.data[i]? = some d' ∧ d'.time = d.time ∧ d'.cycles = d.cycles

omit [Field K] in
theorem preAdvanceLevel_noscript (c : Ctx K G Opt Meth Cb) (l : Nat) (sub : Nat × Nat) (hs : c.script = []) :
    ClockSame c (c.preAdvanceLevel l sub) := by
  have hsame : ClockSame c c := ⟨hs, rfl, rfl, rfl, fun i d h => ⟨d, h, rfl, rfl⟩⟩
  have hr : c.regridAllFiner l = (c, c.maxLevels) := by
    unfold Ctx.regridAllFiner
    split
    · rw [hs]
    · rfl
  unfold Ctx.preAdvanceLevel
  split
  · split
    · exact hsame
    · split
      · simp only [hr, lt_irrefl, if_false]
        refine ⟨hs, rfl, rfl, by simp [Ctx.markRegrid], ?_⟩
        intro i d h
        refine ⟨if l ≤ i then { d with regridTime := d.time } else d, by simp [Ctx.markRegrid, h], ?_, ?_⟩ <;> split <;> rfl
      · exact hsame
  · exact hsame

omit [LinearOrder K] in
theorem ClockStep.comp_same {ratio : Nat → Nat} {l : Nat} {dt : K} {c c' c'' : Ctx K G Opt Meth Cb}
    (h : ClockSame c c') (h' : ClockStep ratio l dt c' c'') : ClockStep ratio l dt c c'' := by
  refine ⟨h'.script, h'.maxL.trans h.maxL, h'.hlen.trans h.hlen, h'.dlen.trans h.dlen, ?_, ?_⟩
  · intro i d hi hd
    obtain ⟨d', h1, h2, h3⟩ := h.same i d hd
    obtain ⟨d'', g1, g2, g3⟩ := h'.below i d' hi h1
    exact ⟨d'', g1, g2.trans h2, g3.trans h3⟩
  · intro i d hi hd
    obtain ⟨d', h1, h2, h3⟩ := h.same i d hd
    obtain ⟨d'', g1, g2, g3⟩ := h'.above i d' hi h1
    exact ⟨d'', g1, by rw [g2, h2], by rw [g3, h3]⟩

/-- `m` repetitions of a step of level `l` -/
structure ClockLoop (ratio : Nat → Nat) (l m : Nat) (dt : K) (c c' : Ctx K G Opt Meth Cb) : Prop where
  script : c'.script = []
  maxL : c'.maxLevels = c.maxLevels
  hlen : c'.hier.length = c.hier.length
  dlen : c'.data.length = c.data.length
  below : ∀ i d, i < l → c.data[i]? = some d → ∃ d', c'.data[i]? = some d' ∧ d'.time = d.time ∧ d'.cycles = d.cycles
  above : ∀ i d, l ≤ i → c.data[i]? = some d → ∃ d', c'.data[i]? = some d' ∧ d'.time = d.time + m * dt ∧
    d'.cycles = d.cycles + m * (∏ j ∈ Finset.Ioc l i, ratio j : Nat)

theorem forSub_clock (ratio : Nat → Nat) (fuel l n : Nat) (dt : K)
    (ih : ∀ r (c : Ctx K G Opt Meth Cb), c.script = [] → c.data.length = c.hier.length → l < c.hier.length → c.hier.length ≤ l + fuel →
      (advanceLevel (clockSys ratio) fuel l dt (r, n) c).2 = none ∧
      ClockStep ratio l dt c (advanceLevel (clockSys ratio) fuel l dt (r, n) c).1) :
    ∀ (m r : Nat) (c : Ctx K G Opt Meth Cb), c.script = [] → c.data.length = c.hier.length → l < c.hier.length → c.hier.length ≤ l + fuel →
      (forSub (fun r s => advanceLevel (clockSys ratio) fuel l dt (r, n) s) m r c).2 = none ∧
      ClockLoop ratio l m dt c (forSub (fun r s => advanceLevel (clockSys ratio) fuel l dt (r, n) s) m r c).1 := by
  intro m
  induction m with
  | zero =>
    intro r c hs _ _ _
    refine ⟨rfl, hs, rfl, rfl, rfl, fun i d _ h => ⟨d, h, rfl, rfl⟩, fun i d _ h => ⟨d, h, by simp [], by simp []⟩⟩
  | succ m ihm =>
    intro r c hs hd hl hf
    obtain ⟨h1, h2⟩ := ih r c hs hd hl hf
    rw [forSub]
    generalize advanceLevel (clockSys ratio) fuel l dt (r, n) c = x at h1 h2
    obtain ⟨c1, e⟩ := x
    simp only at h1 h2
    subst h1
    obtain ⟨g1, g2⟩ := ihm (r + 1) c1 h2.script (by rw [h2.dlen, h2.hlen, hd]) (by rw [h2.hlen]; exact hl)
      (by rw [h2.hlen]; exact hf)
    simp only [andThen]
    refine ⟨g1, g2.script, g2.maxL.trans h2.maxL, g2.hlen.trans h2.hlen, g2.dlen.trans h2.dlen, ?_, ?_⟩
    · intro i d hi hd
      obtain ⟨d', a1, a2, a3⟩ := h2.below i d hi hd
      obtain ⟨d'', b1, b2, b3⟩ := g2.below i d' hi a1
      exact ⟨d'', b1, b2.trans a2, b3.trans a3⟩
    · intro i d hi hd
      obtain ⟨d', a1, a2, a3⟩ := h2.above i d hi hd
      obtain ⟨d'', b1, b2, b3⟩ := g2.above i d' hi a1
      refine ⟨d'', b1, ?_, ?_⟩
      · rw [b2, a2]; push_cast; ring
      · rw [b3, a3]; push_cast; ring

theorem tail_clock (ratio : Nat → Nat) (l : Nat) (dt : K) (sub : Nat × Nat) (c : Ctx K G Opt Meth Cb)
    (hs : c.script = []) :
    let c' := ((clockSys ratio).copyBack l c).postAdvanceLevel l dt sub
    c'.script = [] ∧ c'.maxLevels = c.maxLevels ∧ c'.hier.length = c.hier.length ∧ c'.data.length = c.data.length ∧
    (∀ i d, i ≠ l → c.data[i]? = some d → c'.data[i]? = some d) ∧
    (∀ d, c.data[l]? = some d → ∃ d', c'.data[l]? = some d' ∧ d'.time = d.time + dt ∧ d'.cycles = d.cycles + 1) := by
  rcases h : c.data[l]? with _ | d0
  · simp [clockSys, h, Ctx.postAdvanceLevel, hs]
  · have hl : l < c.data.length := by
      by_contra hc
      rw [List.getElem?_eq_none (by omega)] at h; cases h
    simp only [clockSys, h, Ctx.postAdvanceLevel]
    refine ⟨hs, trivial, ?_, by simp, ?_, ?_⟩
    · split <;> simp
    · intro i d hi hd
      rw [List.getElem?_set_ne (fun h => hi h.symm)]; exact hd
    · intro d hd
      simp only [Option.some.injEq] at hd
      subst hd
      exact ⟨{ d0 with time := d0.time + dt, cycles := d0.cycles + 1 }, by simp [List.getElem?_set_self hl], rfl, rfl⟩

theorem advanceLevel_clock (ratio : Nat → Nat) (hr : ∀ j, (ratio j : K) ≠ 0) : ∀ (fuel l : Nat) (dt : K) (sub : Nat × Nat)
    (c : Ctx K G Opt Meth Cb), c.script = [] → c.data.length = c.hier.length → l < c.hier.length → c.hier.length ≤ l + fuel →
    (advanceLevel (clockSys ratio) fuel l dt sub c).2 = none ∧
    ClockStep ratio l dt c (advanceLevel (clockSys ratio) fuel l dt sub c).1 := by
  intro fuel
  induction fuel with
  | zero => intro l dt sub c _ _ _ _; omega
  | succ fuel ih =>
    intro l dt sub c hs hd hl hf
    have hpre := preAdvanceLevel_noscript c l sub hs
    generalize hc1 : c.preAdvanceLevel l sub = c1 at hpre
    refine (fun h => ⟨h.1, ClockStep.comp_same hpre h.2⟩ : ((advanceLevel (clockSys ratio) (fuel + 1) l dt sub c).2 = none ∧
      ClockStep ratio l dt c1 (advanceLevel (clockSys ratio) (fuel + 1) l dt sub c).1) → _) ?_
    have hd1 : c1.data.length = c1.hier.length := by rw [hpre.dlen, hpre.hlen, hd]
    have hl1 : l < c1.hier.length := by rw [hpre.hlen]; exact hl
    have hf1 : c1.hier.length ≤ l + (fuel + 1) := by rw [hpre.hlen]; exact hf
    have e1 : (clockSys ratio).pre l dt sub c = c1 := hc1
    have hs1 := hpre.script
    clear hc1 hpre hs hd hl hf
    rw [advanceLevel]
    simp only [e1]
    by_cases hx : l + 1 < c1.hier.length
    · have hx' : (clockSys (K := K) ratio).levelExists c1 (l + 1) = true := by simp [clockSys, hx]
      rw [if_pos hx']
      obtain ⟨g1, g2⟩ := forSub_clock ratio fuel (l + 1) (ratio (l + 1)) (dt / (ratio (l + 1) : K))
        (fun r c h1 h2 h3 h4 => ih (l + 1) _ (r, ratio (l + 1)) c h1 h2 h3 h4) (ratio (l + 1)) 0 c1 hs1 hd1 (by omega) (by omega)
      have eloop : (scaleRes (clockSys (G := G) (Opt := Opt) (Meth := Meth) (Cb := Cb) (K := K) ratio).ratio (forSub (fun r s =>
          advanceLevel (clockSys ratio) fuel (l + 1) (dt / ((clockSys (K := K) (G := G) (Opt := Opt) (Meth := Meth) (Cb := Cb) ratio).ratio (l + 1) : K))
          (r, (clockSys (K := K) (G := G) (Opt := Opt) (Meth := Meth) (Cb := Cb) ratio).ratio (l + 1)) s)
          ((clockSys (K := K) (G := G) (Opt := Opt) (Meth := Meth) (Cb := Cb) ratio).ratio (l + 1)) 0
          ((clockSys ratio).reset (l + 1) l c1))) =
          ((forSub (fun r s => advanceLevel (clockSys ratio) fuel (l + 1) (dt / (ratio (l + 1) : K)) (r, ratio (l + 1)) s)
            (ratio (l + 1)) 0 c1).1, none) := by
        change (_, Option.map _ (forSub _ _ _ c1).2) = _
        rw [Prod.mk.injEq]
        refine ⟨rfl, ?_⟩
        have : (forSub (fun r s => advanceLevel (clockSys ratio) fuel (l + 1) (dt / (ratio (l + 1) : K)) (r, ratio (l + 1)) s)
            (ratio (l + 1)) 0 c1).2 = none := g1
        exact (congrArg (Option.map _) this)
      rw [eloop]
      generalize (forSub (fun r s => advanceLevel (clockSys ratio) fuel (l + 1) (dt / (ratio (l + 1) : K)) (r, ratio (l + 1)) s)
            (ratio (l + 1)) 0 c1).1 = c2 at g2
      have hx2 : (clockSys (K := K) ratio).levelExists c2 (l + 1) = true := by simp [clockSys, g2.hlen, hx]
      simp only [andThen, show (clockSys ratio).adv l dt sub c2 = (c2, none) from rfl, scaleRes, Option.map_none, hx2, if_true,
        show ∀ c, (clockSys (K := K) (G := G) (Opt := Opt) (Meth := Meth) (Cb := Cb) ratio).corr (l + 1) l dt c = c from fun _ => rfl,
        show ∀ c, (clockSys (K := K) (G := G) (Opt := Opt) (Meth := Meth) (Cb := Cb) ratio).complete l dt c = c from fun _ => rfl,
        show ∀ c, (clockSys (K := K) (G := G) (Opt := Opt) (Meth := Meth) (Cb := Cb) ratio).coarsen (l + 1) l c = c from fun _ => rfl,
        show ∀ c, (clockSys (K := K) (G := G) (Opt := Opt) (Meth := Meth) (Cb := Cb) ratio).post l dt sub c = (c.postAdvanceLevel l dt sub, none) from fun _ => rfl]
      refine ⟨trivial, ?_⟩
      obtain ⟨t1, t2, t3, t4, t5, t6⟩ := tail_clock ratio l dt sub c2 g2.script
      refine ⟨t1, t2.trans g2.maxL, t3.trans g2.hlen, t4.trans g2.dlen, ?_, ?_⟩
      · intro i d hi hd
        obtain ⟨d', a1, a2, a3⟩ := g2.below i d (by omega) hd
        exact ⟨d', t5 i d' (by omega) a1, a2, a3⟩
      · intro i d hi hd
        by_cases hil : i = l
        · subst hil
          obtain ⟨d', a1, a2, a3⟩ := g2.below i d (by omega) hd
          obtain ⟨d'', b1, b2, b3⟩ := t6 d' a1
          exact ⟨d'', b1, by rw [b2, a2], by rw [b3, a3]; simp⟩
        · obtain ⟨d', a1, a2, a3⟩ := g2.above i d (by omega) hd
          refine ⟨d', t5 i d' hil a1, ?_, ?_⟩
          · rw [a2]; have := hr (l + 1); field_simp
          · rw [a3, prod_Ioc_head ratio l i (by omega)]; push_cast; rfl
    · have hx' : (clockSys (K := K) ratio).levelExists c1 (l + 1) = false := by simp [clockSys]; omega
      simp only [hx', Bool.false_eq_true, if_false, andThen, show (clockSys ratio).adv l dt sub c1 = (c1, none) from rfl, scaleRes, Option.map_none,
        show ∀ c, (clockSys (K := K) (G := G) (Opt := Opt) (Meth := Meth) (Cb := Cb) ratio).post l dt sub c = (c.postAdvanceLevel l dt sub, none) from fun _ => rfl]
      refine ⟨trivial, ?_⟩
      obtain ⟨t1, t2, t3, t4, t5, t6⟩ := tail_clock ratio l dt sub c1 hs1
      refine ⟨t1, t2, t3, t4, fun i d hi hd => ⟨d, t5 i d (by omega) hd, rfl, rfl⟩, ?_⟩
      intro i d hi hd
      have hil : i = l := by
        have : i < c1.data.length := by
          by_contra hc; rw [List.getElem?_eq_none (by omega)] at hd; cases hd
        omega
      subst hil
      obtain ⟨d'', b1, b2, b3⟩ := t6 d hd
      exact ⟨d'', b1, b2, by rw [b3]; simp⟩

end

end Fub
