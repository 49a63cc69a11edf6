import Verif.Spec.MatlabText
import Mathlib.Algebra.Order.Field.Rat
import Mathlib.Tactic.NormNum

/-!
C202: the text output for Matlab.
-/

namespace Fub

theorem wordsFrom_word (w s cur : List Char) (h : ∀ c ∈ w, isSep c = false) : wordsFrom cur (w ++ s) = wordsFrom (cur ++ w) s := by
  induction w generalizing cur with
  | nil => simp
  | cons c w ih =>
    rw [List.cons_append, wordsFrom, if_neg (by rw [h c List.mem_cons_self]; decide), ih (cur ++ [c]) fun d hd => h d (List.mem_cons_of_mem _ hd)]
    simp

theorem wordsFrom_sep (cur : List Char) (hc : cur ≠ []) (c : Char) (h : isSep c = true) (s : List Char) : wordsFrom cur (c :: s) = cur :: wordsFrom [] s := by
  rw [wordsFrom, if_pos h, if_neg hc]

theorem wordsFrom_blank (c : Char) (h : isSep c = true) (s : List Char) : wordsFrom [] (c :: s) = wordsFrom [] s := by
  rw [wordsFrom, if_pos h, if_pos rfl]

theorem wordsFrom_blanks (k : ℕ) (s : List Char) : wordsFrom [] (List.replicate k ' ' ++ s) = wordsFrom [] s := by
  induction k with
  | zero => rfl
  | succ k ih => rw [List.replicate_succ, List.cons_append, wordsFrom_blank ' ' (by decide), ih]

/-- A padded word that leaves a blank is a word. -/
theorem wordsFrom_pad (w s : List Char) (hw : IsWord w) (hl : w.length < 24) : wordsFrom [] (pad24 w ++ s) = w :: wordsFrom [] s := by
  unfold pad24
  obtain ⟨k, hk⟩ : ∃ k, 24 - w.length = k + 1 := ⟨23 - w.length, by omega⟩
  rw [List.append_assoc, wordsFrom_word _ _ _ hw.2, hk, List.replicate_succ, List.cons_append, List.nil_append, wordsFrom_sep _ hw.1 ' ' (by decide), wordsFrom_blanks]

theorem wordsFrom_field {K : Type} (N : NumText K) (hN : N.Fits) (v : K) (s : List Char) : wordsFrom [] (N.field v ++ s) = N.word v :: wordsFrom [] s := by
  obtain ⟨hw, hl⟩ := hN v
  unfold NumText.field
  by_cases h : N.lead v
  · rw [if_pos h]
    have : pad24 (' ' :: N.word v) ++ s = ' ' :: (N.word v ++ ' ' :: (List.replicate (22 - (N.word v).length) ' ' ++ s)) := by
      unfold pad24
      obtain ⟨k, hk⟩ : ∃ k, 24 - (' ' :: N.word v).length = k + 1 := ⟨22 - (N.word v).length, by rw [List.length_cons]; omega⟩
      have hk' : 22 - (N.word v).length = k := by rw [List.length_cons] at hk; omega
      rw [hk, hk', List.replicate_succ]
      simp
    rw [this, wordsFrom_blank ' ' (by decide), wordsFrom_word _ _ _ hw.2, List.nil_append, wordsFrom_sep _ hw.1 ' ' (by decide), wordsFrom_blanks]
  · rw [if_neg h]
    exact wordsFrom_pad _ _ hw (by omega)

section
variable {K : Type} [Field K] [LinearOrder K]

/-- C202. The line of a cell has exactly one word for each column: the coordinates, the density, the velocities, speed of sound, temperature, pressure, ratio of heat capacities, heat capacity and the densities of the species, in this order. -/
theorem matlab_text_line (N : NumText K) (hN : N.Fits) (x : List K) (c : TextCell K) :
    words (textLine N x c) = (x ++ [c.density] ++ c.momentum.map (fun m => if 0 < c.density then m / c.density else 0) ++ [c.speedOfSound, c.temperature, c.pressure, c.gamma, c.cp] ++ c.species).map N.word := by
  have key : ∀ vs : List K, wordsFrom [] (vs.flatMap N.field ++ ['\n']) = vs.map N.word := by
    intro vs
    induction vs with
    | nil => rfl
    | cons v vs ih => rw [List.flatMap_cons, List.append_assoc, wordsFrom_field N hN, ih, List.map_cons]
  exact key _

/-- C202. The file has a line of names and one line for each cell, in the order of the cells. -/
theorem matlab_text_lines (three : Bool) (N : NumText K) (names : List (List Char)) (hne : names ≠ []) (cells : List (List K × TextCell K)) :
    ∃ ls, writeMatlabText three N names cells = some ls ∧ ls.length = cells.length + 1 ∧ ∀ k, ls[k + 1]? = (cells[k]?).map fun c => textLine N c.1 c.2 := by
  have hs : ∀ names : List (List Char), names ≠ [] → ∃ s, textSpecies three names = some s := by
    intro names
    induction names with
    | nil => intro h; exact absurd rfl h
    | cons a rest ih =>
      intro _
      cases rest with
      | nil => exact ⟨_, rfl⟩
      | cons b rest =>
        obtain ⟨s, hs⟩ := ih (by simp)
        exact ⟨(if three then pad24 a else a ++ [' ']) ++ s, by rw [textSpecies, hs]; rfl⟩
  obtain ⟨s, hs⟩ := hs names hne
  refine ⟨((textColumns three).flatMap pad24 ++ s) :: cells.map (fun c => textLine N c.1 c.2), by simp [writeMatlabText, textHeader, hs], by simp, ?_⟩
  intro k
  simp

end

/-- The words of the species in the header, if the text before has the unfinished word `cur`. -/
theorem species_words (three : Bool) (s : List Char) (rest : List (List Char)) (hw : ∀ w ∈ s :: rest, IsWord w) (hl : three = true → ∀ w ∈ s :: rest, w.length < 24) (cur : List Char) :
    ∃ t, textSpecies three (s :: rest) = some t ∧ wordsFrom cur t = (cur ++ s) :: rest := by
  have hsep : ∀ (w : List Char) (cur : List Char), IsWord w → cur ++ w ≠ [] := by
    intro w cur hw h
    exact hw.1 (List.append_eq_nil_iff.mp h).2
  have hpad : ∀ (w t cur : List Char), IsWord w → w.length < 24 → wordsFrom cur (pad24 w ++ t) = (cur ++ w) :: wordsFrom [] t := by
    intro w t cur hw hl
    unfold pad24
    obtain ⟨k, hk⟩ : ∃ k, 24 - w.length = k + 1 := ⟨23 - w.length, by omega⟩
    rw [List.append_assoc, wordsFrom_word _ _ _ hw.2, hk, List.replicate_succ, List.cons_append, wordsFrom_sep _ (hsep w cur hw) ' ' (by decide), wordsFrom_blanks]
  induction rest generalizing s cur with
  | nil =>
    have h1 := hw s List.mem_cons_self
    refine ⟨_, rfl, ?_⟩
    cases three with
    | false =>
      show wordsFrom cur (s ++ ['\n']) = _
      rw [wordsFrom_word _ _ _ h1.2, wordsFrom_sep _ (hsep s cur h1) '\n' (by decide)]
      rfl
    | true =>
      show wordsFrom cur (pad24 s ++ ['\n']) = _
      rw [hpad s _ cur h1 (hl rfl s List.mem_cons_self)]
      rfl
  | cons a rest ih =>
    have h1 := hw s List.mem_cons_self
    obtain ⟨t, ht, htw⟩ := ih a (fun w h => hw w (List.mem_cons_of_mem _ h)) (fun h3 w h => hl h3 w (List.mem_cons_of_mem _ h)) []
    refine ⟨(if three then pad24 s else s ++ [' ']) ++ t, by rw [textSpecies, ht]; rfl, ?_⟩
    cases three with
    | false =>
      show wordsFrom cur ((s ++ [' ']) ++ t) = _
      rw [List.append_assoc, wordsFrom_word _ _ _ h1.2]
      show wordsFrom (cur ++ s) (' ' :: t) = _
      rw [wordsFrom_sep _ (hsep s cur h1) ' ' (by decide), htw]
      rfl
    | true =>
      show wordsFrom cur (pad24 s ++ t) = _
      rw [hpad s _ cur h1 (hl rfl s List.mem_cons_self), htw]
      rfl

/-- C202 is false of the line of names, for every list of species: the name of the heat capacity is longer than its field and the name of the first species follows without a blank. The line has one word less than the lines of numbers, and the words from there on stand one column to the left of their numbers. -/
theorem matlab_text_header_wrong (three : Bool) (s : List Char) (rest : List (List Char)) (hw : ∀ w ∈ s :: rest, IsWord w) (hl : three = true → ∀ w ∈ s :: rest, w.length < 24) :
    ∃ h, textHeader three (s :: rest) = some h ∧
      words h = (textColumns three).dropLast ++ [("HeatCapacityAtConstantPressure".toList ++ s)] ++ rest ∧
      (words h).length + 1 = (textColumns three).length + (s :: rest).length := by
  obtain ⟨t, ht, htw⟩ := species_words three s rest hw hl "HeatCapacityAtConstantPressure".toList
  refine ⟨(textColumns three).flatMap pad24 ++ t, by simp only [textHeader, ht, Option.map_some], ?_⟩
  have key : words ((textColumns three).flatMap pad24 ++ t) = (textColumns three).dropLast ++ [("HeatCapacityAtConstantPressure".toList ++ s)] ++ rest := by
    have hcols : ∀ (ws : List (List Char)), (∀ w ∈ ws, IsWord w ∧ w.length < 24) → ∀ u, wordsFrom [] (ws.flatMap pad24 ++ u) = ws ++ wordsFrom [] u := by
      intro ws
      induction ws with
      | nil => intro _ u; rfl
      | cons w ws ih =>
        intro h u
        rw [List.flatMap_cons, List.append_assoc, wordsFrom_pad w _ (h w List.mem_cons_self).1 (h w List.mem_cons_self).2, ih (fun w hw => h w (List.mem_cons_of_mem _ hw)) u]
        rfl
    have hsplit : textColumns three = (textColumns three).dropLast ++ ["HeatCapacityAtConstantPressure".toList] := by cases three <;> decide
    have hgood : ∀ w ∈ (textColumns three).dropLast, IsWord w ∧ w.length < 24 := by
      cases three <;> (unfold IsWord; decide)
    have hlong : pad24 "HeatCapacityAtConstantPressure".toList = "HeatCapacityAtConstantPressure".toList := by decide
    have hnb : ∀ c ∈ "HeatCapacityAtConstantPressure".toList, isSep c = false := by decide
    conv_lhs => rw [hsplit]
    unfold words
    rw [List.flatMap_append, List.append_assoc, hcols _ hgood, List.flatMap_singleton, hlong, wordsFrom_word _ _ _ hnb, List.nil_append, htw]
    simp
  refine ⟨key, ?_⟩
  rw [key]
  cases three <;> simp [textColumns] <;> omega

/-- The hypotheses hold for the species hydrogen and oxygen; the line of names in one dimension. -/
example : (∀ w ∈ ["H2".toList, "O2".toList], IsWord w) ∧
    (textHeader false ["H2".toList, "O2".toList]).map (fun h => (words h).map String.ofList)
      = some ["X", "Density", "VelocityX", "SpeedOfSound", "Temperature", "Pressure", "Gamma", "HeatCapacityAtConstantPressureH2", "O2"] := by
  refine ⟨by unfold IsWord; decide, by decide +kernel⟩

/-- A way to print numbers that fits: the sign only. A cell without density has zero velocity. -/
example : ∃ N : NumText ℚ, N.Fits ∧ (words (textLine N [1] ⟨0, [5], 1, -2, 3, 4, 5, [0, 1]⟩)).map String.ofList = ["p", "z", "z", "p", "m", "p", "p", "p", "z", "p"] := by
  refine ⟨⟨fun v => if v < 0 then ['m'] else if v = 0 then ['z'] else ['p'], fun v => decide (0 ≤ v)⟩, ?_, by decide +kernel⟩
  intro v
  show IsWord (if v < 0 then ['m'] else if v = 0 then ['z'] else ['p']) ∧ _
  dsimp only
  split_ifs <;> (unfold IsWord; decide)

end Fub
