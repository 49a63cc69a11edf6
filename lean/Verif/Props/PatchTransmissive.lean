import Verif.Spec.PatchTransmissive
import Verif.Props.IndexBox
import Mathlib.Data.Fin.VecNotation

/-!
# C208: transmissive boundaries on a single patch
-/

namespace Fub
variable {n : ℕ} {V : Type*}

/-- Copies whose sources are not written. -/
theorem copyLoop (ok : Index n → Bool) (src : Index n → Index n) (clean : V → V) (data : Index n → V) : ∀ (l : List (Index n)) (acc : Index n → V),
    (∀ i ∈ l, ok (src i) = true ∧ acc (src i) = data (src i) ∧ ∀ j ∈ l, src i ≠ j) →
    ∃ r, l.foldlM (fun d i => if ok (src i) then some (Function.update d i (clean (d (src i)))) else none) acc = some r ∧
      (∀ i ∈ l, r i = clean (data (src i))) ∧ ∀ i, i ∉ l → r i = acc i := by
  intro l
  induction l with
  | nil => intro acc _; exact ⟨acc, rfl, by simp, fun _ _ => rfl⟩
  | cons a l ih =>
    intro acc h
    have ha := h a (by simp)
    obtain ⟨r, hr, h1, h2⟩ := ih (Function.update acc a (clean (acc (src a)))) (by
      intro i hi
      have hi' := h i (by simp [hi])
      refine ⟨hi'.1, ?_, fun j hj => hi'.2.2 j (by simp [hj])⟩
      rw [Function.update_of_ne (hi'.2.2 a (by simp))]
      exact hi'.2.1)
    refine ⟨r, ?_, ?_, ?_⟩
    · rw [List.foldlM_cons]
      simp only [ha.1, if_true]
      exact hr
    · intro i hi
      by_cases hl : i ∈ l
      · exact h1 i hl
      · obtain rfl : i = a := by simpa [hl] using hi
        rw [h2 i hl, Function.update_self, ha.2.1]
    · intro i hi
      have hne : i ≠ a := by rintro rfl; simp at hi
      rw [h2 i (by intro h; exact hi (by simp [h])), Function.update_of_ne hne]

/-- The loop with a source outside of the cells to fill. -/
theorem transmissiveLoop_spec (clean : V → V) (box fill : IndexBox n) (dir : Fin n) (source : ℤ) (data : Index n → V)
    (hsrc : source < fill.lower dir ∨ fill.upper dir ≤ source) (hin : box.lower dir ≤ source ∧ source < box.upper dir)
    (hsub : ∀ e, e ≠ dir → fill.lower e = box.lower e ∧ fill.upper e = box.upper e) :
    ∃ r, transmissiveLoop box fill dir source clean data = some r ∧
      (∀ i, (∀ e, fill.lower e ≤ i e ∧ i e < fill.upper e) → r i = clean (data (Function.update i dir source))) ∧
      ∀ i, (∃ e, i e < fill.lower e ∨ fill.upper e ≤ i e) → r i = data i := by
  have hmem : ∀ i, i ∈ forEachIndex fill ↔ ∀ e, fill.lower e ≤ i e ∧ i e < fill.upper e := fun i => (forEachIndex_spec fill).1 i
  obtain ⟨r, hr, h1, h2⟩ := copyLoop box.contains (fun i => Function.update i dir source) clean data (forEachIndex fill) data (by
    intro i hi
    have hi' := (hmem i).1 hi
    refine ⟨?_, rfl, ?_⟩
    · rw [contains_iff]
      intro e
      by_cases he : e = dir
      · subst he; rw [Function.update_self]; exact hin
      · rw [Function.update_of_ne he, ← (hsub e he).1, ← (hsub e he).2]; exact hi' e
    · rintro j hj rfl
      have := (hmem _).1 hj dir
      rw [Function.update_self] at this
      omega)
  refine ⟨r, hr, fun i hi => h1 i ((hmem i).2 hi), fun i hi => h2 i fun hmi => ?_⟩
  obtain ⟨e, he⟩ := hi
  have := (hmem i).1 hmi e
  omega

/-- **C208** For every box with more cells in the direction than are filled, the boundary condition gives every ghost cell of the side the state of the nearest interior cell in the same
row, and changes no other cell. -/
theorem patch_transmissive (clean : V → V) (box : IndexBox n) (dir : Fin n) (side width : ℤ) (hside : side = 0 ∨ side = 1) (hw : 0 ≤ width)
    (hbig : width < box.upper dir - box.lower dir) (data : Index n → V) :
    ∃ r, patchTransmissive clean box dir side width data = some r ∧
      (∀ i, IsFilled box dir side width i → r i = clean (data (Function.update i dir (interiorNext box dir side width)))) ∧
      ∀ i, ¬ IsFilled box dir side width i → r i = data i := by
  rcases hside with rfl | rfl
  · obtain ⟨r, hr, h1, h2⟩ := transmissiveLoop_spec clean box ⟨box.lower, Function.update box.upper dir (box.lower dir + width)⟩ dir
      (box.lower dir + width) data (Or.inr (by simp)) ⟨by omega, by omega⟩ (fun e he => ⟨rfl, by simp [Function.update_of_ne he]⟩)
    refine ⟨r, ?_, fun i hi => ?_, fun i hi => ?_⟩
    · simpa [patchTransmissive] using hr
    · simp only [IsFilled, if_true] at hi
      rw [show interiorNext box dir 0 width = box.lower dir + width by simp [interiorNext]]
      refine h1 i fun e => ⟨(hi.1 e).1, ?_⟩
      by_cases he : e = dir
      · subst he; simpa using hi.2
      · simpa [Function.update_of_ne he] using (hi.1 e).2
    · refine h2 i ?_
      by_contra hno
      push Not at hno
      refine hi ⟨fun e => ⟨(hno e).1, ?_⟩, ?_⟩
      · have := (hno e).2
        by_cases he : e = dir
        · subst he; simp only [Function.update_self] at this; omega
        · simpa [Function.update_of_ne he] using this
      · have := (hno dir).2
        simpa using this
  · obtain ⟨r, hr, h1, h2⟩ := transmissiveLoop_spec clean box ⟨Function.update box.lower dir (box.upper dir - width), box.upper⟩ dir
      (box.upper dir - width - 1) data (Or.inl (by simp)) ⟨by omega, by omega⟩ (fun e he => ⟨by simp [Function.update_of_ne he], rfl⟩)
    refine ⟨r, ?_, fun i hi => ?_, fun i hi => ?_⟩
    · simpa [patchTransmissive] using hr
    · simp only [IsFilled, one_ne_zero, if_false] at hi
      rw [show interiorNext box dir 1 width = box.upper dir - width - 1 by simp [interiorNext]]
      refine h1 i fun e => ⟨?_, (hi.1 e).2⟩
      by_cases he : e = dir
      · subst he; simpa using hi.2
      · simpa [Function.update_of_ne he] using (hi.1 e).1
    · refine h2 i ?_
      by_contra hno
      push Not at hno
      refine hi ⟨fun e => ⟨?_, (hno e).2⟩, ?_⟩
      · have := (hno e).1
        by_cases he : e = dir
        · subst he; simp only [Function.update_self] at this; omega
        · simpa [Function.update_of_ne he] using this
      · have := (hno dir).1
        simpa using this

/-- **C208** Two sides in different directions can be filled in either order; ghost cells in corners get the state of the nearest interior cell. -/
theorem patch_transmissive_order (clean : V → V) (box : IndexBox n) (dir dir' : Fin n) (hd : dir ≠ dir') (side side' width width' : ℤ)
    (hside : side = 0 ∨ side = 1) (hside' : side' = 0 ∨ side' = 1) (hw : 0 ≤ width) (hw' : 0 ≤ width')
    (hbig : width < box.upper dir - box.lower dir) (hbig' : width' < box.upper dir' - box.lower dir') (data : Index n → V) :
    ∃ r, (patchTransmissive clean box dir side width data).bind (patchTransmissive clean box dir' side' width') = some r ∧
      (patchTransmissive clean box dir' side' width' data).bind (patchTransmissive clean box dir side width) = some r ∧
      ∀ i, IsFilled box dir side width i → IsFilled box dir' side' width' i →
        r i = clean (clean (data (Function.update (Function.update i dir (interiorNext box dir side width)) dir' (interiorNext box dir' side' width')))) := by
  obtain ⟨a, ha, ha1, ha2⟩ := patch_transmissive clean box dir side width hside hw hbig data
  obtain ⟨b, hb, hb1, hb2⟩ := patch_transmissive clean box dir' side' width' hside' hw' hbig' data
  obtain ⟨c, hc, hc1, hc2⟩ := patch_transmissive clean box dir' side' width' hside' hw' hbig' a
  obtain ⟨d, hdd, hd1, hd2⟩ := patch_transmissive clean box dir side width hside hw hbig b
  -- moving along one direction inside the box does not change whether a cell is filled in the other one
  have keep : ∀ (p q : Fin n) (s w s' w' : ℤ), p ≠ q → (s = 0 ∨ s = 1) → 0 ≤ w → w < box.upper p - box.lower p → ∀ i, (∀ e, box.lower e ≤ i e ∧ i e < box.upper e) →
      (IsFilled box q s' w' (Function.update i p (interiorNext box p s w)) ↔ IsFilled box q s' w' i) := by
    intro p q s w s' w' hpq hs h0 hlt i hi
    have hin : ∀ e, box.lower e ≤ Function.update i p (interiorNext box p s w) e ∧ Function.update i p (interiorNext box p s w) e < box.upper e := by
      intro e
      by_cases he : e = p
      · subst he
        rw [Function.update_self]
        rcases hs with rfl | rfl <;> simp only [interiorNext, if_true, one_ne_zero, if_false] <;> omega
      · rw [Function.update_of_ne he]; exact hi e
    have hq : Function.update i p (interiorNext box p s w) q = i q := Function.update_of_ne (Ne.symm hpq) _ _
    simp only [IsFilled, hq]
    exact ⟨fun h => ⟨hi, h.2⟩, fun h => ⟨hin, h.2⟩⟩
  have hval : ∀ i, c i = d i := by
    intro i
    by_cases h1 : IsFilled box dir side width i
    · by_cases h2 : IsFilled box dir' side' width' i
      · rw [hc1 i h2, hd1 i h1, ha1 _ ((keep dir' dir side' width' side width hd.symm hside' hw' hbig' i h1.1).2 h1),
          hb1 _ ((keep dir dir' side width side' width' hd hside hw hbig i h1.1).2 h2), Function.update_comm hd]
      · rw [hc2 i h2, ha1 i h1, hd1 i h1, hb2 _ (fun h => h2 ((keep dir dir' side width side' width' hd hside hw hbig i h1.1).1 h))]
    · by_cases h2 : IsFilled box dir' side' width' i
      · rw [hc1 i h2, hd2 i h1, hb1 i h2, ha2 _ (fun h => h1 ((keep dir' dir side' width' side width hd.symm hside' hw' hbig' i h2.1).1 h))]
      · rw [hc2 i h2, ha2 i h1, hd2 i h1, hb2 i h2]
  refine ⟨c, by rw [ha]; exact hc, ?_, fun i h1 h2 => ?_⟩
  · rw [hb, Option.bind_some, hdd, funext hval]
  · rw [hc1 i h2, ha1 _ ((keep dir' dir side' width' side width hd.symm hside' hw' hbig' i h1.1).2 h1), Function.update_comm hd.symm]

/-- **C208** Next to embedded boundaries no ghost cell holds a state that is not a number, as long as the fallback is a number; states that are numbers are copied. -/
theorem patch_transmissive_fallback (nan : V → Bool) (fallback : V) (hf : nan fallback = false) (box : IndexBox n) (dir : Fin n) (side width : ℤ) (hside : side = 0 ∨ side = 1)
    (hw : 0 ≤ width) (hbig : width < box.upper dir - box.lower dir) (data : Index n → V) :
    ∃ r, patchTransmissive (replaceNaN nan fallback) box dir side width data = some r ∧
      ∀ i, IsFilled box dir side width i → nan (r i) = false ∧
        (nan (data (Function.update i dir (interiorNext box dir side width))) = false → r i = data (Function.update i dir (interiorNext box dir side width))) := by
  obtain ⟨r, hr, h1, -⟩ := patch_transmissive (replaceNaN nan fallback) box dir side width hside hw hbig data
  refine ⟨r, hr, fun i hi => ?_⟩
  rw [h1 i hi, replaceNaN]
  rcases h : nan (data (Function.update i dir (interiorNext box dir side width))) with _ | _
  · simp [h]
  · simp [hf]

/-- **C208** A patch that has no more cells in the direction than are filled makes the boundary condition read outside of its view. -/
theorem patch_transmissive_small (clean : V → V) (box : IndexBox n) (dir : Fin n) (side : ℤ) (hne : ∀ e, box.lower e < box.upper e) (data : Index n → V) :
    patchTransmissive clean box dir side (box.upper dir - box.lower dir) data = none := by
  have hout : ∀ (source : ℤ), (source < box.lower dir ∨ box.upper dir ≤ source) → transmissiveLoop box box dir source clean data = none := by
    intro source hs
    unfold transmissiveLoop
    have hmem : box.lower ∈ forEachIndex box := ((forEachIndex_spec box).1 _).2 fun e => ⟨le_rfl, hne e⟩
    rcases hl : forEachIndex box with _ | ⟨a, l⟩
    · rw [hl] at hmem; simp at hmem
    · have hno : box.contains (Function.update a dir source) = false := by
        rw [Bool.eq_false_iff, ne_eq, contains_iff]
        intro h
        have := h dir
        rw [Function.update_self] at this
        omega
      rw [List.foldlM_cons]
      simp [hno]
  unfold patchTransmissive
  by_cases h0 : side = 0
  · have e : Function.update box.upper dir (box.lower dir + (box.upper dir - box.lower dir)) = box.upper := by
      rw [show box.lower dir + (box.upper dir - box.lower dir) = box.upper dir by omega, Function.update_eq_self]
    simp only [h0, if_true, e]
    exact hout _ (Or.inr le_rfl)
  · by_cases h1 : side = 1
    · have e : Function.update box.lower dir (box.upper dir - (box.upper dir - box.lower dir)) = box.lower := by
        rw [show box.upper dir - (box.upper dir - box.lower dir) = box.lower dir by omega, Function.update_eq_self]
      simp only [h1, one_ne_zero, if_false, if_true, e]
      exact hout _ (Or.inl (by omega))
    · simp only [h0, h1, if_false]

/-- Five cells with two ghost cells on each side of one interior cell; both sides are filled. -/
example : ((patchTransmissive (n := 1) id ⟨fun _ => 0, fun _ => 5⟩ 0 0 2 (fun i => i 0 * 10)).bind (patchTransmissive id ⟨fun _ => 0, fun _ => 5⟩ 0 1 2)).map
    (fun r => (List.range 5).map fun k : ℕ => r fun _ => (k : ℤ)) = some [20, 20, 20, 20, 20] := by decide +kernel

/-- The hypotheses of the theorem about corners hold for a patch of four by three cells with one and two ghost cells. -/
example : ∃ r, (patchTransmissive (V := ℤ) id ⟨![0, 0], ![4, 3]⟩ 0 1 1 (fun i => i 0 + 10 * i 1)).bind (patchTransmissive id ⟨![0, 0], ![4, 3]⟩ 1 0 2) = some r := by
  obtain ⟨r, h, -⟩ := patch_transmissive_order (V := ℤ) (n := 2) id ⟨![0, 0], ![4, 3]⟩ 0 1 (by decide) 1 0 1 2 (Or.inr rfl) (Or.inl rfl) (by decide) (by decide) (by decide) (by decide)
    (fun i => i 0 + 10 * i 1)
  exact ⟨r, h⟩

end Fub
