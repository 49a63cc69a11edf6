import Verif.Model.Options

/-!
# C137: options are what the user wrote, defaults are used exactly for what the user did not write
-/

namespace Fub

variable {K : Type*}

/-- **C137.** The default is used exactly if the option is not given; an option of the wrong type is an
error and is not replaced by the default. -/
theorem option_value {T : Type*} (cast : PyVal K → Option T) (map : OptionMap K) (name : List Char)
    (value : T) :
    (map name = none → getOptionOr cast map name value = some value) ∧
    (∀ v t, map name = some v → cast v = some t → getOptionOr cast map name value = some t) ∧
    (∀ v, map name = some v → cast v = none → getOptionOr cast map name value = none) := by
  refine ⟨fun h => ?_, fun v t h1 h2 => ?_, fun v h1 h2 => ?_⟩
  · simp [getOptionOr, h]
  · simp [getOptionOr, h1, h2]
  · simp [getOptionOr, h1, h2]

/-- **C137.** Durations and other numbers may be written with or without a decimal point, directions and
other integers only without. -/
theorem option_number [IntCast K] (map : OptionMap K) (name : List Char) (value : K) (dir : ℤ) (n : ℤ)
    (hn : -2 ^ 31 ≤ n ∧ n < 2 ^ 31) (x : K) :
    (map name = some (.int n) → getOptionDuration map name value = some (n : K)) ∧
    (map name = some (.float x) → getOptionDuration map name value = some x) ∧
    (map name = some (.int n) → getOptionDirection map name dir = some n) ∧
    (map name = some (.float x) → getOptionDirection map name dir = none) := by
  refine ⟨fun h => ?_, fun h => ?_, fun h => ?_, fun h => ?_⟩
  · simp [getOptionDuration, getOptionOr, h, castDouble]
  · simp [getOptionDuration, getOptionOr, h, castDouble]
  · simp only [getOptionDirection, getOptionOr, h, castInt]
    rw [if_pos hn]
  · simp [getOptionDirection, getOptionOr, h, castInt]

/-- **C137**, a disagreement: an integer that is no direction is accepted as a direction. -/
theorem option_direction_unchecked : ∃ map : OptionMap K,
    getOptionDirection map ['d'] 0 = some 7 := by
  exact ⟨fun _ => some (.int 7), rfl⟩

theorem toMap_spec (entries : List (Option (List Char) × PyVal K)) (acc : OptionMap K)
    (hkeys : ∀ e ∈ entries, e.1 ≠ none) :
    ∃ m, toMap entries acc = some m ∧ ∀ k, m k = match acc k with
      | some v => some v
      | none => (entries.find? (fun e => decide (e.1 = some k))).map Prod.snd := by
  induction entries generalizing acc with
  | nil =>
    refine ⟨acc, rfl, fun k => ?_⟩
    cases acc k <;> simp
  | cons e rest ih =>
    obtain ⟨k0, v0⟩ := e
    cases k0 with
    | none => exact absurd rfl (hkeys (none, v0) (by simp))
    | some k0 =>
      obtain ⟨m, h1, h2⟩ := ih (emplaceOption acc k0 v0)
        (fun e he => hkeys e (List.mem_cons_of_mem _ he))
      refine ⟨m, h1, fun k => ?_⟩
      rw [h2]
      by_cases hk : k = k0
      · subst hk
        cases ha : acc k with
        | none => simp [emplaceOption, ha]
        | some w => simp [emplaceOption, ha]
      · have hk' : ¬ k0 = k := fun h => hk h.symm
        cases ha : acc k with
        | none => simp [emplaceOption, hk, hk', ha]
        | some w => simp [emplaceOption, hk, ha]

/-- **C137.** The options of a section are the entries of the dictionary the user gave for it. -/
theorem options_section (options : OptionMap K) (name : List Char)
    (entries : List (Option (List Char) × PyVal K)) (h : options name = some (.dict entries))
    (hkeys : ∀ e ∈ entries, e.1 ≠ none) :
    ∃ m, getOptions options name = some m ∧
      ∀ k, m k = (entries.find? (fun e => decide (e.1 = some k))).map Prod.snd := by
  obtain ⟨m, h1, h2⟩ := toMap_spec entries (fun _ => none) hkeys
  exact ⟨m, by simp [getOptions, getOptionOr, h, castDict, h1], fun k => by rw [h2]⟩

/-- **C137.** A section that is not given is an empty section, so that all its options have their
defaults. -/
theorem options_missing_section (options : OptionMap K) (name : List Char) (h : options name = none) :
    ∃ m, getOptions options name = some m ∧
      ∀ {T : Type} (cast : PyVal K → Option T) (key : List Char) (value : T),
        getOptionOr cast m key value = some value := by
  refine ⟨fun _ => none, by simp [getOptions, getOptionOr, h, toMap], fun cast key value => ?_⟩
  simp [getOptionOr]

/-- **C137.** A section that is no dictionary, or has a key that is no string, is an error. -/
theorem options_bad_section (options : OptionMap K) (name : List Char) (v : PyVal K)
    (h : options name = some v)
    (hbad : ∀ entries, v = .dict entries → ∃ e ∈ entries, e.1 = none) :
    getOptions options name = none := by
  have key : ∀ (entries : List (Option (List Char) × PyVal K)) (acc : OptionMap K),
      (∃ e ∈ entries, e.1 = none) → toMap entries acc = none := by
    intro entries
    induction entries with
    | nil => intro acc ⟨e, he, _⟩; simp at he
    | cons e rest ih =>
      intro acc hex
      obtain ⟨k0, v0⟩ := e
      cases k0 with
      | none => rfl
      | some k0 =>
        refine ih _ ?_
        obtain ⟨e', he', hn⟩ := hex
        rcases List.mem_cons.mp he' with rfl | he'
        · simp at hn
        · exact ⟨e', he', hn⟩
  cases v with
  | int n => simp [getOptions, getOptionOr, h, castDict]
  | float x => simp [getOptions, getOptionOr, h, castDict]
  | str s => simp [getOptions, getOptionOr, h, castDict]
  | dict entries => simp [getOptions, getOptionOr, h, castDict, key entries _ (hbad entries rfl)]

theorem optionsOfGlobals_spec (g : PyGlobals K) (acc : OptionMap K) (k : List Char) :
    optionsOfGlobals g acc k = match acc k with
      | some v => some v
      | none => if k.take 2 = ['_', '_'] then none else PyGlobals.find g k := by
  induction g generalizing acc with
  | nil => cases h : acc k <;> simp [optionsOfGlobals, h, PyGlobals.find]
  | cons e rest ih =>
    obtain ⟨n, v⟩ := e
    simp only [optionsOfGlobals]
    rw [ih]
    by_cases hn : n.take 2 = ['_', '_']
    · simp only [hn, ne_eq, not_true_eq_false, if_false]
      cases ha : acc k with
      | some w => simp
      | none =>
        by_cases hk : k.take 2 = ['_', '_']
        · simp [hk]
        · have : n ≠ k := by rintro rfl; exact hk hn
          simp [hk, PyGlobals.find, this]
    · simp only [hn, ne_eq, not_false_eq_true, if_true]
      by_cases hk : k = n
      · subst hk
        cases ha : acc k with
        | some w => simp [emplaceOption, ha]
        | none => simp [emplaceOption, ha, hn, PyGlobals.find]
      · have hk' : ¬ n = k := fun h => hk h.symm
        cases ha : acc k with
        | some w => simp [emplaceOption, hk, ha]
        | none => simp [emplaceOption, hk, hk', ha, PyGlobals.find]

/-- **C137.** The options are the global variables the script leaves, except those whose name begins
with two underscores. -/
theorem script_options (exec : PyGlobals K → Option (PyGlobals K)) (setArgs : PyGlobals K → PyGlobals K)
    (hasArgs : Bool) (globals after : PyGlobals K)
    (hexec : exec (if hasArgs then setArgs globals else globals) = some after) :
    ∃ m, parsePythonScript true exec setArgs hasArgs globals = some (m, after) ∧
      ∀ k, m k = if k.take 2 = ['_', '_'] then none else PyGlobals.find after k := by
  refine ⟨optionsOfGlobals after (fun _ => none), by simp [parsePythonScript, hexec], fun k => ?_⟩
  rw [optionsOfGlobals_spec]

/-- **C137**, a disagreement: an option of a first script is an option of a second one that does not
mention it. The second script here defines `b` only. -/
theorem script_options_leak : ∃ exec1 exec2 : PyGlobals ℤ → Option (PyGlobals ℤ),
    exec1 [] = some [(['a'], .int 1)] ∧ (∀ g, exec2 g = some ((['b'], .int 2) :: g)) ∧
    ∃ m1 g1 m2 g2, parsePythonScript true exec1 id false [] = some (m1, g1) ∧
      parsePythonScript true exec2 id false g1 = some (m2, g2) ∧
      m2 ['b'] = some (.int 2) ∧ m2 ['a'] = some (.int 1) := by
  refine ⟨fun g => some ((['a'], .int 1) :: g), fun g => some ((['b'], .int 2) :: g), rfl,
    fun _ => rfl, ?_⟩
  refine ⟨_, _, _, _, rfl, rfl, ?_, ?_⟩ <;> rfl

/-- **C137.** The command line gives options exactly if it can be parsed, the script (if there is one)
runs without an error and help is not asked for; without a script there are no options. -/
theorem command_line (parsed : Option (Bool × Bool)) (script : Option (OptionMap K)) :
    (∀ m, parseCommandLine parsed script = some m ↔
      (parsed = some (true, false) ∧ script = some m) ∨
      (parsed = some (false, false) ∧ m = fun _ => none)) := by
  intro m
  rcases parsed with _ | ⟨c, h⟩
  · simp [parseCommandLine]
  · cases c <;> cases h <;> cases script <;> simp [parseCommandLine, eq_comm]

/-- A section with two options, and the same dictionary as the hypothesis of `options_section`. -/
example : let entries : List (Option (List Char) × PyVal ℤ) :=
      [(some ['a'], .int 1), (some ['b'], .float 2)]
    (∀ e ∈ entries, e.1 ≠ none) ∧
    ∃ m, getOptions (fun k => if k = ['s'] then some (.dict entries) else none) ['s'] = some m ∧
      getOptionOr castInt m ['a'] 5 = some 1 ∧ getOptionOr castDouble m ['b'] 5 = some 2 ∧
      getOptionOr castDouble m ['c'] 5 = some 5 ∧ getOptionOr castInt m ['b'] 5 = none := by
  refine ⟨by simp, _, rfl, ?_, ?_, ?_, ?_⟩ <;> rfl

end Fub
