import Verif.Model.OmpLocal
import Mathlib.Algebra.BigOperators.Field
import Mathlib.Tactic.Ring
import Mathlib.Tactic.FieldSimp
import Mathlib.Algebra.BigOperators.Ring.Finset
import Mathlib.Algebra.BigOperators.Group.List.Lemmas

/-! # Lemmas on values per thread -/

namespace Fub

theorem ompStep_eq {T E : Type*} (f : T → E → T) (inst : List T) (ev : ℕ × E)
    (h : ev.1 < inst.length) :
    ompStep f inst ev = some (inst.set ev.1 (f inst[ev.1] ev.2)) := by
  unfold ompStep
  rw [List.getElem?_eq_getElem h]

theorem ompRun_length {T E : Type*} (f : T → E → T) (evs : List (ℕ × E)) (inst inst' : List T)
    (h : ompRun f inst evs = some inst') :
    inst'.length = inst.length ∧ ∀ ev ∈ evs, ev.1 < inst.length := by
  induction evs generalizing inst with
  | nil =>
    simp only [ompRun, Option.some.injEq] at h
    subst h
    simp
  | cons ev evs ih =>
    simp only [ompRun] at h
    by_cases hlt : ev.1 < inst.length
    · rw [ompStep_eq f inst ev hlt] at h
      simp only at h
      obtain ⟨h1, h2⟩ := ih _ h
      simp only [List.length_set] at h1 h2
      refine ⟨h1, fun e he => ?_⟩
      rcases List.mem_cons.mp he with rfl | he
      · exact hlt
      · exact h2 e he
    · have : ompStep f inst ev = none := by
        unfold ompStep
        rw [List.getElem?_eq_none (by omega)]
      rw [this] at h
      simp at h

theorem ompRun_total {T E : Type*} (f : T → E → T) (evs : List (ℕ × E)) (inst : List T)
    (h : ∀ ev ∈ evs, ev.1 < inst.length) : ∃ inst', ompRun f inst evs = some inst' := by
  induction evs generalizing inst with
  | nil => exact ⟨inst, rfl⟩
  | cons ev evs ih =>
    simp only [ompRun]
    rw [ompStep_eq f inst ev (h ev (by simp))]
    simp only
    apply ih
    intro e he
    simp only [List.length_set]
    exact h e (List.mem_cons_of_mem _ he)

theorem ompRun_getElem {T E : Type*} (f : T → E → T) (evs : List (ℕ × E)) (inst inst' : List T)
    (h : ompRun f inst evs = some inst') (t : ℕ) (ht : t < inst.length) (ht' : t < inst'.length) :
    inst'[t] = ((evs.filter (fun ev => ev.1 == t)).map Prod.snd).foldl f inst[t] := by
  induction evs generalizing inst with
  | nil =>
    simp only [ompRun, Option.some.injEq] at h
    subst h
    simp
  | cons ev evs ih =>
    have hlt := (ompRun_length f _ inst inst' h).2 ev (by simp)
    simp only [ompRun] at h
    rw [ompStep_eq f inst ev hlt] at h
    simp only at h
    have := ih _ h (by simpa using ht)
    rw [this]
    by_cases he : ev.1 = t
    · subst he
      simp
    · simp [he, List.getElem_set]

theorem ompRun_sum {T E : Type*} [AddCommMonoid T] (g : E → T) (evs : List (ℕ × E))
    (inst inst' : List T) (h : ompRun (fun t e => t + g e) inst evs = some inst') :
    inst'.sum = inst.sum + (evs.map (fun ev => g ev.2)).sum := by
  induction evs generalizing inst with
  | nil =>
    simp only [ompRun, Option.some.injEq] at h
    subst h
    simp
  | cons ev evs ih =>
    have hlt := (ompRun_length _ _ inst inst' h).2 ev (by simp)
    simp only [ompRun] at h
    rw [ompStep_eq _ inst ev hlt] at h
    simp only at h
    rw [ih _ h]
    have hset : (inst.set ev.1 (inst[ev.1] + g ev.2)).sum = inst.sum + g ev.2 := by
      clear h ih
      generalize ev.1 = k at hlt
      induction inst generalizing k with
      | nil => simp at hlt
      | cons a as ih =>
        cases k with
        | zero => simp [add_right_comm]
        | succ n =>
          simp only [List.length_cons, Nat.add_lt_add_iff_right] at hlt
          simp only [List.set_cons_succ, List.getElem_cons_succ, List.sum_cons]
          rw [ih n hlt, add_assoc]
    rw [hset]
    simp [add_assoc]

theorem ompAccumulate_add {T : Type*} [AddCommMonoid T] (l : List T) (hl : l ≠ []) :
    ompAccumulate (· + ·) l = some l.sum := by
  cases l with
  | nil => exact absurd rfl hl
  | cons a as =>
    simp only [ompAccumulate, List.sum_cons, Option.some.injEq]
    induction as generalizing a with
    | nil => simp
    | cons b bs ih => simp only [List.foldl_cons, List.sum_cons]; rw [ih (a + b) (by simp), add_assoc]

theorem ompMin_spec {T : Type*} [LinearOrder T] (l : List T) (m : T) (h : ompMin l = some m) :
    m ∈ l ∧ ∀ x ∈ l, m ≤ x := by
  cases l with
  | nil => simp [ompMin] at h
  | cons a as =>
    simp only [ompMin, Option.some.injEq] at h
    subst h
    induction as generalizing a with
    | nil => simp
    | cons b bs ih =>
      simp only [List.foldl_cons]
      by_cases hb : b < a
      · simp only [hb, if_true]
        obtain ⟨h1, h2⟩ := ih b
        refine ⟨?_, fun x hx => ?_⟩
        · rcases List.mem_cons.mp h1 with h | h
          · rw [h]; simp
          · exact List.mem_cons_of_mem _ (List.mem_cons_of_mem _ h)
        · rcases List.mem_cons.mp hx with rfl | hx
          · exact le_trans (h2 b (by simp)) hb.le
          · exact h2 x hx
      · simp only [hb, if_false]
        obtain ⟨h1, h2⟩ := ih a
        refine ⟨?_, fun x hx => ?_⟩
        · rcases List.mem_cons.mp h1 with h | h
          · rw [h]; simp
          · exact List.mem_cons_of_mem _ (List.mem_cons_of_mem _ h)
        · rcases List.mem_cons.mp hx with rfl | hx
          · exact h2 x (by simp)
          · rcases List.mem_cons.mp hx with rfl | hx
            · exact le_trans (h2 a (by simp)) (not_lt.mp hb)
            · exact h2 x (List.mem_cons_of_mem _ hx)

theorem foldl_min_spec {T : Type*} [LinearOrder T] (l : List T) (a : T) :
    (l.foldl min a = a ∨ l.foldl min a ∈ l) ∧ l.foldl min a ≤ a ∧ ∀ x ∈ l, l.foldl min a ≤ x := by
  induction l generalizing a with
  | nil => simp
  | cons b bs ih =>
    simp only [List.foldl_cons]
    obtain ⟨h1, h2, h3⟩ := ih (min a b)
    refine ⟨?_, le_trans h2 (min_le_left _ _), fun x hx => ?_⟩
    · rcases h1 with h | h
      · rcases min_choice a b with hm | hm
        · rw [h, hm]; simp
        · rw [h, hm]; simp
      · right; exact List.mem_cons_of_mem _ h
    · rcases List.mem_cons.mp hx with rfl | hx
      · exact le_trans h2 (min_le_right _ _)
      · exact h3 x hx

end Fub
