import Verif.Spec.StateComponents
import Mathlib.Tactic.Linarith

/-! # C210: the components of a state by number -/

namespace Fub

variable {K : Type}

theorem componentLoop_neg (vs : List (CompVar K)) :
    ∀ (i : Nat) (c : Int) (p : Option (Nat × Nat)), c < 0 → componentLoop vs i c p = p := by
  induction vs with
  | nil => intros; rfl
  | cons v vs ih =>
    intro i c p hc
    cases v with
    | scalar x =>
      simp only [componentLoop]
      rw [ih _ _ _ (by omega), if_neg (by omega)]
    | vector xs =>
      simp only [componentLoop]
      rw [ih _ _ _ (by omega), if_neg (by omega)]

/-- Where the pointer ends. -/
theorem componentLoop_spec (vs : List (CompVar K)) :
    ∀ (i c : Nat) (p : Option (Nat × Nat)),
      ((allComponents vs).length ≤ c → componentLoop vs i (c : Int) p = p) ∧
      (c < (allComponents vs).length → ∃ a k, componentLoop vs i (c : Int) p = some (i + a, k) ∧
        componentLoad vs (a, k) = (allComponents vs)[c]? ∧
        ∀ v, allComponents (vs.modify a (CompVar.write k v)) = (allComponents vs).set c v ∧
          SameDepths (vs.modify a (CompVar.write k v)) vs) := by
  induction vs with
  | nil => intro i c p; simp [allComponents, componentLoop]
  | cons w vs ih =>
    intro i c p
    have hlen : (allComponents (w :: vs)).length = w.entries.length + (allComponents vs).length := by
      simp [allComponents]
    have hcons : allComponents (w :: vs) = w.entries ++ allComponents vs := by simp [allComponents]
    -- the variable that holds the component is this one
    have here : ∀ k, componentLoop (w :: vs) i (c : Int) p = some (i, k) → c = k → k < w.entries.length →
        componentLoad (w :: vs) (0, k) = w.entries[k]? → (∀ v, (CompVar.write k v w).entries = w.entries.set k v) →
        ∃ a k, componentLoop (w :: vs) i (c : Int) p = some (i + a, k) ∧
        componentLoad (w :: vs) (a, k) = (allComponents (w :: vs))[c]? ∧
        ∀ v, allComponents ((w :: vs).modify a (CompVar.write k v)) = (allComponents (w :: vs)).set c v ∧
          SameDepths ((w :: vs).modify a (CompVar.write k v)) (w :: vs) := by
      intro k h1 h2 h3 h4 h5
      subst h2
      refine ⟨0, c, h1, ?_, fun v => ⟨?_, ?_⟩⟩
      · rw [h4, hcons, List.getElem?_append_left h3]
      · rw [hcons, List.set_append_left _ _ h3, ← h5 v]; simp [allComponents]
      · simp [SameDepths, h5]
    -- or one of those behind it
    have there : w.entries.length ≤ c → ∀ q, componentLoop (w :: vs) i (c : Int) p =
        componentLoop vs (i + 1) ((c - w.entries.length : Nat) : Int) q → q = p →
        ((allComponents (w :: vs)).length ≤ c → componentLoop (w :: vs) i (c : Int) p = p) ∧
        (c < (allComponents (w :: vs)).length → ∃ a k, componentLoop (w :: vs) i (c : Int) p = some (i + a, k) ∧
        componentLoad (w :: vs) (a, k) = (allComponents (w :: vs))[c]? ∧
        ∀ v, allComponents ((w :: vs).modify a (CompVar.write k v)) = (allComponents (w :: vs)).set c v ∧
          SameDepths ((w :: vs).modify a (CompVar.write k v)) (w :: vs)) := by
      intro hle q hq hqp
      subst hqp
      obtain ⟨g1, g2⟩ := ih (i + 1) (c - w.entries.length) q
      refine ⟨fun h => by rw [hq]; exact g1 (by omega), fun h => ?_⟩
      obtain ⟨a, k, k1, k2, k3⟩ := g2 (by omega)
      refine ⟨a + 1, k, by rw [hq, k1]; simp; omega, ?_, fun v => ?_⟩
      · rw [hcons, List.getElem?_append_right hle, ← k2]
        simp [componentLoad]
      · obtain ⟨k4, k5⟩ := k3 v
        constructor
        · rw [hcons, List.set_append_right _ _ hle, ← k4]; simp [allComponents]
        · simp only [SameDepths, List.modify_succ_cons, List.map_cons] at k5 ⊢
          rw [k5]
    cases w with
    | scalar x =>
      by_cases hc : c = 0
      · subst hc
        refine ⟨fun h => ?_, fun _ => here 0 ?_ rfl (by simp [CompVar.entries]) (by simp [componentLoad, CompVar.entries])
          (fun v => by simp [CompVar.write, CompVar.entries])⟩
        · simp [hlen, CompVar.entries] at h
        · simp only [componentLoop, Nat.cast_zero, if_true]
          exact componentLoop_neg _ _ _ _ (by omega)
      · refine there (by simp [CompVar.entries]; omega) p ?_ rfl
        simp only [componentLoop, CompVar.entries, List.length_singleton]
        rw [if_neg (by omega)]
        congr 1; omega
    | vector xs =>
      by_cases hc : c < xs.length
      · refine ⟨fun h => ?_, fun _ => here c ?_ rfl (by simpa [CompVar.entries] using hc)
          (by simp [componentLoad, CompVar.entries]) (fun v => by simp [CompVar.write, CompVar.entries])⟩
        · simp only [hlen, CompVar.entries] at h; omega
        · simp only [componentLoop]
          rw [if_pos (by omega), componentLoop_neg _ _ _ _ (by omega)]; simp
      · refine there (by simp [CompVar.entries]; omega) p ?_ rfl
        simp only [componentLoop, CompVar.entries]
        rw [if_neg (by omega)]
        congr 1; omega

/-- **C210.** Component number `c` is the `c`-th number of the state, variable after variable; a negative number, or one that is not
less than the number of components, fails the assertion. -/
theorem state_component_get (vs : List (CompVar K)) (c : Int) :
    getComponent vs c = if 0 ≤ c then (allComponents vs)[c.toNat]? else none := by
  by_cases h0 : 0 ≤ c
  · obtain ⟨m, rfl⟩ := Int.eq_ofNat_of_zero_le h0
    rw [if_pos h0]
    obtain ⟨g1, g2⟩ := componentLoop_spec vs 0 m none
    by_cases hm : m < (allComponents vs).length
    · obtain ⟨a, k, k1, k2, _⟩ := g2 hm
      simp only [getComponent, k1, Option.bind_some]
      rw [Nat.zero_add, k2]; rfl
    · simp only [getComponent, g1 (by omega), Option.bind_none]
      rw [eq_comm, List.getElem?_eq_none_iff]
      simpa using hm
  · rw [if_neg h0]
    simp only [getComponent, componentLoop_neg vs 0 c none (by omega), Option.bind_none]

/-- **C210.** Writing to component `c` changes this number and no other, and no depth. -/
theorem state_component_set (vs : List (CompVar K)) (c : Nat) (v : K) (h : c < (allComponents vs).length) :
    ∃ ws, setComponent vs c v = some ws ∧ allComponents ws = (allComponents vs).set c v ∧ SameDepths ws vs := by
  obtain ⟨_, g2⟩ := componentLoop_spec vs 0 c none
  obtain ⟨a, k, k1, _, k3⟩ := g2 h
  refine ⟨_, by simp only [setComponent, k1, Option.map_some]; rfl, ?_, ?_⟩
  · rw [Nat.zero_add]; exact (k3 v).1
  · rw [Nat.zero_add]; exact (k3 v).2

theorem componentCount_acc (vs : List (CompVar K)) : ∀ n : Int,
    vs.foldl countComponents n = n + (allComponents vs).length := by
  induction vs with
  | nil => intro n; simp [allComponents]
  | cons w vs ih =>
    intro n
    rw [List.foldl_cons, ih]
    cases w <;> simp [countComponents, allComponents, CompVar.entries] <;> omega

/-- **C210.** The number of components is the number of numbers in the state. -/
theorem state_component_count (vs : List (CompVar K)) : componentCount vs = (allComponents vs).length := by
  have := componentCount_acc vs 0
  simpa [componentCount] using this

/-- **C210.** The components below the number of components are exactly those that can be read. -/
theorem state_component_range (vs : List (CompVar K)) (c : Int) :
    (getComponent vs c).isSome = true ↔ 0 ≤ c ∧ c < componentCount vs := by
  rw [state_component_get, state_component_count]
  by_cases h0 : 0 ≤ c
  · rw [if_pos h0]; simp; omega
  · rw [if_neg h0]; simp; omega

/-- A density, a velocity with two entries, no species, a pressure. -/
example : getComponent [.scalar 7, .vector [1, 2], .vector [], .scalar (3 : Int)] 3 = some 3 ∧
    getComponent [.scalar 7, .vector [1, 2], .vector [], .scalar (3 : Int)] 2 = some 2 ∧
    getComponent [.scalar 7, .vector [1, 2], .vector [], .scalar (3 : Int)] 4 = none ∧
    (setComponent [.scalar 7, .vector [1, 2], .vector [], .scalar (3 : Int)] 1 9).map allComponents = some [7, 9, 2, 3] := by
  decide +kernel

end Fub
