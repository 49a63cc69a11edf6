import Verif.Spec.MethodFactory
import Verif.Model.Flux
import Mathlib.Tactic.Ring

/-!
C167: the flux method of a program is the one its options name.
-/

namespace Fub
variable {K S G R : Type}

theorem stringOption_is (options : OptionMap K) (option default name : String) (h : OptionIs options option default name) :
    stringOption options option default = .ok name.toList := by
  rcases h with h | ⟨h, rfl⟩ <;> simp [stringOption, getOptionOr, h, castString]

theorem stringOption_ok {options : OptionMap K} {option default : String} {s : List Char} (h : stringOption options option default = .ok s) :
    OptionIs options option default (String.ofList s) := by
  unfold stringOption getOptionOr at h
  cases ho : options option.toList with
  | none =>
    rw [ho] at h
    simp only [Except.ok.injEq] at h
    refine Or.inr ⟨ho, ?_⟩
    rw [← h]; simp
  | some v =>
    rw [ho] at h
    cases v <;> simp [castString] at h
    subst h
    exact Or.inl (by rw [ho]; simp)

theorem limiterTable_eq : limiterTable = [("MinMod", .minMod), ("NoLimiter", .noLimiter2), ("Upwind", .upwind), ("VanLeer", .vanLeer)] := by rfl
theorem solverTable_eq : solverTable = [("HLLE", .hlle), ("HLLEM", .hllem false), ("HLLEM_Larrouturou", .hllem true)] := by rfl
theorem reconstructionTable_eq : reconstructionTable =
    [("Characteristics", .fluxMethod (.muscl2 (.over .characteristics (.central .vanLeer)) .characteristics (.hllem false))),
     ("Conservative", .fluxMethod (.muscl2 (.over .conservative (.central .vanLeer)) .conservative (.hllem false))),
     ("Primitive", .fluxMethod (.muscl2 (.over .primitive (.central .vanLeer)) .primitive (.hllem false)))] := by rfl

/-! ### The types -/

/-- The limiter inside of a gradient method. -/
def GradTy.limiterOf : GradTy → LimiterTy
  | .central l => l
  | .over _ g => g.limiterOf

/-- **C167 (types).** Replacing the limiter and the Riemann solver works for any nesting of second order methods, and replaces nothing else. -/
theorem rebind_exact (l : LimiterTy) (b : SolverTy) (g : GradTy) (r : VarsTy) (b0 : SolverTy) (k : Nat) :
    rebindLimiter l (MethodTy.fluxMethod^[k] (.muscl2 g r b0)) b = some (MethodTy.fluxMethod^[k] (.muscl2 (rebindGrad l g) r b)) ∧
      (rebindGrad l g).limiterOf = l ∧ (∀ l', rebindGrad l' (rebindGrad l g) = rebindGrad l' g) := by
  refine ⟨?_, ?_, ?_⟩
  · have h1 : ∀ k, rebindLimiterTo l (MethodTy.fluxMethod^[k] (.muscl2 g r b0)) = some (MethodTy.fluxMethod^[k] (.muscl2 (rebindGrad l g) r b0)) := by
      intro k
      induction k with
      | zero => rfl
      | succ k ih => rw [Function.iterate_succ_apply', Function.iterate_succ_apply', rebindLimiterTo, ih]; rfl
    have h2 : ∀ k, rebindBase b (MethodTy.fluxMethod^[k] (.muscl2 (rebindGrad l g) r b0)) = some (MethodTy.fluxMethod^[k] (.muscl2 (rebindGrad l g) r b)) := by
      intro k
      induction k with
      | zero => rfl
      | succ k ih => rw [Function.iterate_succ_apply', Function.iterate_succ_apply', rebindBase, ih]; rfl
    rw [rebindLimiter, h1, Option.bind_some, h2]
  · induction g with
    | central _ => rfl
    | over v g ih => exact ih
  · intro l'
    induction g with
    | central _ => rfl
    | over v g ih => exact congrArg (GradTy.over v) ih

/-! ### The choice -/

/-- The method that has been chosen by the names. -/
theorem tables_meaning [Field K] [LinearOrder K] (P : MethodParts K S G R) {nl nr nb : String} {l : LimiterTy} {m : MethodTy} {b : SolverTy}
    (hl : smapAt "limiter" limiterTable nl.toList = .ok l) (hm : smapAt "reconstruction" reconstructionTable nr.toList = .ok m)
    (hb : smapAt "base_method" solverTable nb.toList = .ok b) :
    ∃ c limiter vars, rebindLimiter l m b = some c ∧ namedLimiter nl = some limiter ∧ namedVariables nr = some vars ∧ namedSolver nb = some b ∧
      c.baseOf = b ∧ c.run P = some (secondOrderFlux P limiter vars b) := by
  have hlim : ∃ limiter : K → K, namedLimiter nl = some limiter ∧ l.call = limiter := by
    rw [limiterTable_eq] at hl
    simp only [smapAt, List.find?, String.toList_inj] at hl
    unfold namedLimiter
    by_cases h1 : nl = "MinMod"
    · subst h1
      simp at hl
      subst hl
      refine ⟨_, rfl, ?_⟩
      funext x
      simp only [LimiterTy.call, minModLimiter]
      congr 1
      ring
    by_cases h2 : nl = "NoLimiter"
    · subst h2; simp at hl; subst hl; exact ⟨_, rfl, rfl⟩
    by_cases h3 : nl = "Upwind"
    · subst h3; simp at hl; subst hl; exact ⟨_, rfl, rfl⟩
    by_cases h4 : nl = "VanLeer"
    · subst h4; simp at hl; subst hl
      refine ⟨_, rfl, ?_⟩
      funext x
      simp only [LimiterTy.call, vanLeerLimiter, sq]
    · simp [Ne.symm h1, Ne.symm h2, Ne.symm h3, Ne.symm h4] at hl
  have hsol : namedSolver nb = some b := by
    rw [solverTable_eq] at hb
    simp only [smapAt, List.find?, String.toList_inj] at hb
    unfold namedSolver
    by_cases h1 : nb = "HLLE"
    · subst h1; simp at hb; subst hb; rfl
    by_cases h2 : nb = "HLLEM"
    · subst h2; simp at hb; subst hb; rfl
    by_cases h3 : nb = "HLLEM_Larrouturou"
    · subst h3; simp at hb; subst hb; rfl
    · simp [Ne.symm h1, Ne.symm h2, Ne.symm h3] at hb
  have hvar : ∃ v, namedVariables nr = some v ∧ m = .fluxMethod (.muscl2 (.over v (.central .vanLeer)) v (.hllem false)) := by
    rw [reconstructionTable_eq] at hm
    simp only [smapAt, List.find?, String.toList_inj] at hm
    unfold namedVariables
    by_cases h1 : nr = "Characteristics"
    · subst h1; simp at hm; subst hm; exact ⟨_, rfl, rfl⟩
    by_cases h2 : nr = "Conservative"
    · subst h2; simp at hm; subst hm; exact ⟨_, rfl, rfl⟩
    by_cases h3 : nr = "Primitive"
    · subst h3; simp at hm; subst hm; exact ⟨_, rfl, rfl⟩
    · simp [Ne.symm h1, Ne.symm h2, Ne.symm h3] at hm
  obtain ⟨limiter, hn, hcall⟩ := hlim
  obtain ⟨v, hv, rfl⟩ := hvar
  refine ⟨.fluxMethod (.muscl2 (.over v (.central l)) v b), limiter, v, rfl, hn, hv, hsol, rfl, ?_⟩
  have hg : centralGradient (l.call (K := K)) = limitedSlope limiter := by
    funext x y
    unfold centralGradient limitedSlope
    rw [hcall]
    split
    · rfl
    · dsimp only; ring
  simp only [MethodTy.run, if_true, hg]
  rfl

theorem smapAt_known {nl : String} {limiter : K → K} [Field K] [LinearOrder K] (h : namedLimiter nl = some limiter) :
    ∃ l, smapAt "limiter" limiterTable nl.toList = .ok l := by
  unfold namedLimiter at h
  rw [limiterTable_eq]
  split_ifs at h with h1 h2 h3 h4
  · subst h1; exact ⟨_, rfl⟩
  · subst h2; exact ⟨_, rfl⟩
  · subst h3; exact ⟨_, rfl⟩
  · subst h4; exact ⟨_, rfl⟩

theorem smapAt_vars {n : String} {v : VarsTy} (h : namedVariables n = some v) : ∃ m, smapAt "reconstruction" reconstructionTable n.toList = .ok m := by
  unfold namedVariables at h
  rw [reconstructionTable_eq]
  split_ifs at h with h1 h2 h3
  · subst h1; exact ⟨_, rfl⟩
  · subst h2; exact ⟨_, rfl⟩
  · subst h3; exact ⟨_, rfl⟩

theorem smapAt_solver {n : String} {b : SolverTy} (h : namedSolver n = some b) : ∃ m, smapAt "base_method" solverTable n.toList = .ok m := by
  unfold namedSolver at h
  rw [solverTable_eq]
  split_ifs at h with h1 h2 h3
  · subst h1; exact ⟨_, rfl⟩
  · subst h2; exact ⟨_, rfl⟩
  · subst h3; exact ⟨_, rfl⟩

/-- **C167 (selection).** If the options name a limiter, variables, a Riemann solver (or leave them out) and a function for the area (or none), the program runs with the
second order method made of these three, and with the axial time integrator for this area, or with the plain time integrator. -/
theorem factory_selects [Field K] [LinearOrder K] (P : MethodParts K S G R) (castFun : PyVal K → Option (K → K)) (options : OptionMap K) (nl nr nb : String)
    (limiter : K → K) (vars : VarsTy) (solver : SolverTy) (area : Option (K → K))
    (hl : OptionIs options "limiter" "MinMod" nl) (hr : OptionIs options "reconstruction" "Characteristics" nr)
    (hb : OptionIs options "base_method" "HLLEM_Larrouturou" nb) (hnl : namedLimiter nl = some limiter) (hnr : namedVariables nr = some vars)
    (hnb : namedSolver nb = some solver) (harea : (options "area_variation".toList).map castFun = area.map some) :
    ∃ c, getFluxMethod castFun options = .ok (some c) ∧ c.area = area ∧ c.flux.run P = some (secondOrderFlux P limiter vars solver) := by
  obtain ⟨l, h1⟩ := smapAt_known hnl
  obtain ⟨m, h2⟩ := smapAt_vars hnr
  obtain ⟨b, h3⟩ := smapAt_solver hnb
  obtain ⟨c, limiter', vars', hc, k1, k2, k3, -, hrun⟩ := tables_meaning P h1 h2 h3
  have e1 : limiter' = limiter := Option.some.inj (k1.symm.trans hnl)
  have e2 : vars' = vars := Option.some.inj (k2.symm.trans hnr)
  have e3 : b = solver := Option.some.inj (k3.symm.trans hnb)
  subst e1 e2 e3
  refine ⟨⟨c, area⟩, ?_, rfl, hrun⟩
  have ha : areaOption castFun options = .ok area := by
    unfold areaOption
    cases ho : options "area_variation".toList with
    | none => rw [ho] at harea; cases area with
      | none => rfl
      | some f => cases harea
    | some obj => rw [ho] at harea; cases area with
      | none => cases harea
      | some f =>
        have : castFun obj = some f := by simpa using harea
        simp only [this]
  unfold getFluxMethod
  rw [ha, stringOption_is _ _ _ _ hl, stringOption_is _ _ _ _ hr, stringOption_is _ _ _ _ hb]
  show (do
    let limiter ← smapAt "limiter" limiterTable nl.toList
    let reconstruction ← smapAt "reconstruction" reconstructionTable nr.toList
    let base ← smapAt "base_method" solverTable nb.toList
    return (rebindLimiter limiter reconstruction base).map fun m => (⟨m, area⟩ : ChosenMethod K) : Except FactoryErr (Option (ChosenMethod K))) = _
  rw [h1, h2, h3]
  show (pure ((rebindLimiter l m b).map _) : Except FactoryErr _) = _
  rw [hc]; rfl

/-- **C167 (nothing else is accepted).** A program that gets a method has options of this form: any other text or type of value ends in an exception. -/
theorem factory_accepts_only [Field K] [LinearOrder K] (castFun : PyVal K → Option (K → K)) (options : OptionMap K) (r : Option (ChosenMethod K))
    (h : getFluxMethod castFun options = .ok r) :
    ∃ nl nr nb, OptionIs options "limiter" "MinMod" nl ∧ OptionIs options "reconstruction" "Characteristics" nr ∧
      OptionIs options "base_method" "HLLEM_Larrouturou" nb ∧ (namedLimiter (K := K) nl).isSome ∧ (namedVariables nr).isSome ∧ (namedSolver nb).isSome ∧
      (∀ v, options "area_variation".toList = some v → (castFun v).isSome) ∧ r.isSome := by
  unfold getFluxMethod at h
  cases h1 : stringOption options "limiter" "MinMod" with
  | error e => rw [h1] at h; cases h
  | ok sl =>
  cases h2 : stringOption options "reconstruction" "Characteristics" with
  | error e => rw [h1, h2] at h; cases h
  | ok sr =>
  cases h3 : stringOption options "base_method" "HLLEM_Larrouturou" with
  | error e => rw [h1, h2, h3] at h; cases h
  | ok sb =>
  rw [h1, h2, h3] at h
  cases h4 : areaOption castFun options with
  | error e => rw [h4] at h; cases h
  | ok area =>
  rw [h4] at h
  replace h : (do
      let limiter ← smapAt "limiter" limiterTable sl
      let reconstruction ← smapAt "reconstruction" reconstructionTable sr
      let base ← smapAt "base_method" solverTable sb
      return (rebindLimiter limiter reconstruction base).map fun m => (⟨m, area⟩ : ChosenMethod K) : Except FactoryErr (Option (ChosenMethod K))) = .ok r := h
  have harea : ∀ v, options "area_variation".toList = some v → (castFun v).isSome := by
    intro v hv
    unfold areaOption at h4
    rw [hv] at h4
    cases hf : castFun v with
    | none => simp [hf] at h4
    | some f => rfl
  cases k1 : smapAt "limiter" limiterTable sl with
  | error e => rw [k1] at h; cases h
  | ok l =>
  cases k2 : smapAt "reconstruction" reconstructionTable sr with
  | error e => rw [k1, k2] at h; cases h
  | ok m =>
  cases k3 : smapAt "base_method" solverTable sb with
  | error e => rw [k1, k2, k3] at h; cases h
  | ok b =>
  have q1 : smapAt "limiter" limiterTable (String.ofList sl).toList = .ok l := by simpa using k1
  have q2 : smapAt "reconstruction" reconstructionTable (String.ofList sr).toList = .ok m := by simpa using k2
  have q3 : smapAt "base_method" solverTable (String.ofList sb).toList = .ok b := by simpa using k3
  obtain ⟨c, limiter, vars, hc, t1, t2, t3, -⟩ := tables_meaning (K := K) (S := Unit) (G := Unit) (R := Unit) ⟨fun _ _ _ _ _ _ => (), fun _ _ _ _ _ _ => (), fun _ _ _ => ()⟩
    q1 q2 q3
  rw [k1, k2, k3] at h
  have hr : r = (rebindLimiter l m b).map fun m => ⟨m, area⟩ := (Except.ok.inj h).symm
  refine ⟨_, _, _, stringOption_ok h1, stringOption_ok h2, stringOption_ok h3, by rw [t1]; rfl, by rw [t2]; rfl, by rw [t3]; rfl, harea, ?_⟩
  rw [hr, hc]; rfl

/-- **C167 (embedded boundaries).** The method for embedded boundaries is chosen by the same options in the same way: the same second order method away from the
boundary, the same Riemann solver at the wall; it exists if and only if the plain method exists for options without area. -/
theorem cut_factory_same [Field K] [LinearOrder K] (castFun : PyVal K → Option (K → K)) (options : OptionMap K) (ha : options "area_variation".toList = none) :
    getFluxMethod castFun options = (getCutCellMethod options).map (fun c => c.map fun c => ⟨c.flux, none⟩) ∧
      ∀ c, getCutCellMethod options = .ok (some c) → ∀ (P : MethodParts K S G R), ∃ limiter vars, c.flux.run P = some (secondOrderFlux P limiter vars c.wall) := by
  constructor
  · unfold getFluxMethod getCutCellMethod
    have h4 : areaOption castFun options = .ok none := by rw [areaOption, ha]
    rw [h4]
    cases h1 : stringOption options "limiter" "MinMod" with
    | error e => rfl
    | ok sl =>
    cases h2 : stringOption options "reconstruction" "Characteristics" with
    | error e => rfl
    | ok sr =>
    cases h3 : stringOption options "base_method" "HLLEM_Larrouturou" with
    | error e => rfl
    | ok sb =>
    show (do
      let limiter ← smapAt "limiter" limiterTable sl
      let reconstruction ← smapAt "reconstruction" reconstructionTable sr
      let base ← smapAt "base_method" solverTable sb
      return (rebindLimiter limiter reconstruction base).map fun m => (⟨m, none⟩ : ChosenMethod K) : Except FactoryErr (Option (ChosenMethod K))) =
      Except.map _ (do
        let limiter ← smapAt "limiter" limiterTable sl
        let reconstruction ← smapAt "reconstruction" reconstructionTable sr
        let base ← smapAt "base_method" solverTable sb
        return (rebindLimiter limiter reconstruction base).map fun m => (⟨m, m.baseOf⟩ : ChosenCutMethod))
    cases smapAt "limiter" limiterTable sl with
    | error e => rfl
    | ok l =>
    cases smapAt "reconstruction" reconstructionTable sr with
    | error e => rfl
    | ok m =>
    cases smapAt "base_method" solverTable sb with
    | error e => rfl
    | ok b =>
    show Except.ok _ = Except.ok _
    cases rebindLimiter l m b <;> rfl
  · intro c h P
    unfold getCutCellMethod at h
    cases h1 : stringOption options "limiter" "MinMod" with
    | error e => rw [h1] at h; cases h
    | ok sl =>
    cases h2 : stringOption options "reconstruction" "Characteristics" with
    | error e => rw [h1, h2] at h; cases h
    | ok sr =>
    cases h3 : stringOption options "base_method" "HLLEM_Larrouturou" with
    | error e => rw [h1, h2, h3] at h; cases h
    | ok sb =>
    rw [h1, h2, h3] at h
    replace h : (do
      let limiter ← smapAt "limiter" limiterTable sl
      let reconstruction ← smapAt "reconstruction" reconstructionTable sr
      let base ← smapAt "base_method" solverTable sb
      return (rebindLimiter limiter reconstruction base).map fun m => (⟨m, m.baseOf⟩ : ChosenCutMethod) : Except FactoryErr (Option ChosenCutMethod)) = .ok (some c) := h
    cases k1 : smapAt "limiter" limiterTable sl with
    | error e => rw [k1] at h; cases h
    | ok l =>
    cases k2 : smapAt "reconstruction" reconstructionTable sr with
    | error e => rw [k1, k2] at h; cases h
    | ok m =>
    cases k3 : smapAt "base_method" solverTable sb with
    | error e => rw [k1, k2, k3] at h; cases h
    | ok b =>
    have q1 : smapAt "limiter" limiterTable (String.ofList sl).toList = .ok l := by simpa using k1
    have q2 : smapAt "reconstruction" reconstructionTable (String.ofList sr).toList = .ok m := by simpa using k2
    have q3 : smapAt "base_method" solverTable (String.ofList sb).toList = .ok b := by simpa using k3
    obtain ⟨c', limiter, vars, hc, t1, t2, t3, hbase, hrun⟩ := tables_meaning P q1 q2 q3
    rw [k1, k2, k3] at h
    have hr := Except.ok.inj h
    rw [hc] at hr
    simp only [Option.map_some, Option.some.injEq] at hr
    subst hr
    exact ⟨limiter, vars, by rw [hrun]; simp only [hbase]⟩

/-- With conservative variables the chosen method is the one whose properties are proved for `muscl2Flux`. -/
theorem factory_conservative [Field K] [LinearOrder K] {C ι : Type} (E : EqnOps K C ι) (P : MethodParts K C (ι → K) R) (base : SolverTy)
    (hg : ∀ lim a b c dx, P.grad .conservative lim a b c dx = fun i => lim ((E.cons b i - E.cons a i) / dx) ((E.cons c i - E.cons b i) / dx))
    (hr : ∀ q g dt dx up, P.recon .conservative q g dt dx up = consReconstruct E q g dt dx up) (l : LimiterTy) :
    (MethodTy.fluxMethod (.muscl2 (.over .conservative (.central l)) .conservative base)).run P =
      some (muscl2Flux E (P.solver base) l.call) := by
  simp only [MethodTy.run, if_true, hg, hr]
  rfl

/-- The options of an example: `limiter = "VanLeer"`, `base_method = "HLLE"`, an area. -/
def exMethodOptions : OptionMap ℚ := fun k =>
  if k = "limiter".toList then some (.str "VanLeer".toList) else if k = "base_method".toList then some (.str "HLLE".toList)
  else if k = "area_variation".toList then some (.float 2) else none

def exCastFun : PyVal ℚ → Option (ℚ → ℚ)
  | .float a => some fun _ => a
  | _ => none

/-- The hypotheses of the selection are met by these options: the defaults are used for what is not named. -/
example : OptionIs exMethodOptions "limiter" "MinMod" "VanLeer" ∧ OptionIs exMethodOptions "reconstruction" "Characteristics" "Characteristics" ∧
    OptionIs exMethodOptions "base_method" "HLLEM_Larrouturou" "HLLE" ∧ (namedLimiter (K := ℚ) "VanLeer").isSome ∧
    (getFluxMethod exCastFun exMethodOptions).map (fun c => c.map fun c => (c.flux, c.area.map fun f => f 7)) =
      .ok (some (.fluxMethod (.muscl2 (.over .characteristics (.central .vanLeer)) .characteristics .hlle), some 2)) :=
  ⟨Or.inl rfl, Or.inr ⟨rfl, rfl⟩, Or.inl rfl, rfl, rfl⟩

/-- A misspelt name, and a number for a name. -/
example : (getFluxMethod exCastFun (fun k => if k = "limiter".toList then some (.str "minmod".toList) else none)).map (fun c => c.map fun c => c.flux) =
      .error (.unknown "limiter") ∧
    (getFluxMethod exCastFun (fun k => if k = "base_method".toList then some (.int 1) else none)).map (fun c => c.map fun c => c.flux) =
      .error (.badType "base_method") := ⟨rfl, rfl⟩

end Fub
