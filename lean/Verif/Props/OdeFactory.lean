import Verif.Model.OdeFactory
import Mathlib.Tactic.Tauto

/-!
# C207: making ODE solvers by name
-/

namespace Fub

/-- Registering one entry. -/
theorem findMaker_register {F : Type*} (m : List (String × F)) (e : String × F) (name : String) :
    findMaker (registerSolver m e) name = if (findMaker m name).isSome then findMaker m name else if e.1 = name then some e.2 else none := by
  unfold registerSolver findMaker
  by_cases h : m.any (fun x => x.1 = e.1)
  · simp only [h, if_true]
    rcases hf : m.find? (fun x => decide (x.1 = name)) with _ | x
    · have hne : e.1 ≠ name := by
        rintro rfl
        obtain ⟨x, hx, hx'⟩ := List.any_eq_true.1 h
        exact (List.find?_eq_none.1 hf x hx) hx'
      simp only [hf, Option.map_none, Option.isSome_none, Bool.false_eq_true, if_false, hne]
    · simp only [hf, Option.map_some, Option.isSome_some, if_true]
  · simp only [h, Bool.false_eq_true, if_false]
    rw [List.find?_append]
    rcases hf : m.find? (fun x => decide (x.1 = name)) with _ | x
    · by_cases hn : e.1 = name <;> simp only [hf, hn, List.find?, Option.none_or, Option.map_none, Option.map_some, Option.isSome_none, Bool.false_eq_true, if_false, if_true, decide_true, decide_false]
    · simp only [hf, Option.some_or, Option.map_some, Option.isSome_some, if_true]

/-- **C207** A name is found if and only if it was registered, and then with the entry that was registered first. -/
theorem factory_first {F : Type*} (l : List (String × F)) (name : String) : findMaker (registerSolvers l) name = (l.find? fun x => x.1 = name).map Prod.snd := by
  have key : ∀ (l m : List (String × F)), findMaker (l.foldl registerSolver m) name =
      if (findMaker m name).isSome then findMaker m name else (l.find? fun x => x.1 = name).map Prod.snd := by
    intro l
    induction l with
    | nil =>
      intro m
      rcases hm : findMaker m name with _ | x <;> simp [hm]
    | cons e l ih =>
      intro m
      rw [List.foldl_cons, ih, findMaker_register]
      rcases hm : findMaker m name with _ | x
      · by_cases hn : e.1 = name <;> simp [List.find?, hn]
      · simp
  exact key l []

/-- **C207** The order in which static objects are initialised does not matter, nor how many files include the header of a solver: if the same name always
comes with the same entry, the map depends on nothing but the set of the registrations. -/
theorem factory_order {F : Type*} (l l' : List (String × F)) (hset : ∀ e, e ∈ l ↔ e ∈ l') (hcons : ∀ n f g, (n, f) ∈ l → (n, g) ∈ l → f = g) (name : String) :
    findMaker (registerSolvers l) name = findMaker (registerSolvers l') name := by
  rw [factory_first, factory_first]
  have hsome : ∀ (k : List (String × F)) (x : String × F), (k.find? fun x => decide (x.1 = name)) = some x → x ∈ k ∧ x.1 = name := fun k x h =>
    ⟨List.mem_of_find?_eq_some h, by simpa using List.find?_some h⟩
  rcases h1 : l.find? (fun x => decide (x.1 = name)) with _ | ⟨n, f⟩
  · rcases h2 : l'.find? (fun x => decide (x.1 = name)) with _ | y
    · rw [h1, h2]
    · have := hsome l' y h2
      exact absurd (by simpa using this.2) (List.find?_eq_none.1 h1 y ((hset y).2 this.1))
  · have hf := hsome l _ h1
    rcases h2 : l'.find? (fun x => decide (x.1 = name)) with _ | ⟨n', g⟩
    · exact absurd (by simpa using hf.2) (List.find?_eq_none.1 h2 _ ((hset _).1 hf.1))
    · have hg := hsome l' _ h2
      obtain rfl : n = name := hf.2
      obtain rfl : n' = n := hg.2
      rw [h1, h2]
      simp only [Option.map_some, Option.some.injEq]
      exact hcons n' f g hf.1 ((hset _).2 hg.1)

/-- **C207** In a program whose files include the headers of the solvers in any order and any number of times, RADAU is made for all options, CVode for its own options with the
demanded size, and every other name throws. -/
theorem factory_solvers (l : List (String × OdeMaker)) (hl : ∀ e, e ∈ l ↔ e = ("RADAU", radauMaker) ∨ e = ("CVode", cvodeMaker)) (name : String) (o : OdeOptions) (n : Int) :
    makeSolver (registerSolvers l) "RADAU" o = .made .radau ∧ makeSolver (registerSolvers l) "CVode" (cvodeOptions n) = .made (.cvode n) ∧
    (name ≠ "RADAU" → name ≠ "CVode" → makeSolver (registerSolvers l) name o = .outOfRange) := by
  have hfind : ∀ name, findMaker (registerSolvers l) name = findMaker (registerSolvers [("RADAU", radauMaker), ("CVode", cvodeMaker)]) name := by
    intro name
    refine factory_order l _ (fun e => by rw [hl]; simp) (fun k f g hf hg => ?_) name
    rcases (hl _).1 hf with h1 | h1 <;> rcases (hl _).1 hg with h2 | h2 <;> simp_all
  refine ⟨?_, ?_, fun h1 h2 => ?_⟩
  · rw [makeSolver, hfind, factory_first]; rfl
  · rw [makeSolver, hfind, factory_first]; rfl
  · rw [makeSolver, hfind, factory_first]
    have e1 : ¬ "RADAU" = name := fun h => h1 h.symm
    have e2 : ¬ "CVode" = name := fun h => h2 h.symm
    simp [List.find?, e1, e2]

/-- **C207** Making CVode without options, as the default argument invites to, violates an assertion; so it is for every options object that is not a `CVodeSolverOptions`. -/
theorem factory_cvode_default (l : List (String × OdeMaker)) (hl : ∀ e, e ∈ l ↔ e = ("RADAU", radauMaker) ∨ e = ("CVode", cvodeMaker)) (o : OdeOptions) (ho : o.nVars = none) :
    makeSolver (registerSolvers l) "CVode" .default = .undefined ∧ makeSolver (registerSolvers l) "CVode" o = .undefined := by
  have hfind : findMaker (registerSolvers l) "CVode" = some cvodeMaker := by
    rw [factory_order l [("RADAU", radauMaker), ("CVode", cvodeMaker)] (fun e => by rw [hl]; simp)
      (fun k f g hf hg => by rcases (hl _).1 hf with h1 | h1 <;> rcases (hl _).1 hg with h2 | h2 <;> simp_all) "CVode", factory_first]
    rfl
  refine ⟨by rw [makeSolver, hfind]; rfl, ?_⟩
  rw [makeSolver, hfind]
  simp [cvodeMaker, ho]

/-- Three files, the first and the last with RADAU. -/
example : makeSolver (registerSolvers [("RADAU", radauMaker), ("CVode", cvodeMaker), ("RADAU", radauMaker)]) "CVode" (cvodeOptions 10) = .made (.cvode 10) :=
  (factory_solvers _ (by intro e; simp; tauto) "x" .default 10).2.1

/-- The first entry wins: a second solver with the name RADAU is not used. -/
example : makeSolver (registerSolvers [("RADAU", radauMaker), ("RADAU", cvodeMaker)]) "RADAU" (cvodeOptions 10) = .made .radau := by decide +kernel

end Fub
