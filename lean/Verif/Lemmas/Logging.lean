import Verif.Model.Logging
import Mathlib.Data.List.SplitOn

/-! # Lemmas on logging -/

namespace Fub

theorem lowerBoundFrom_spec (below : ℕ → Bool) (first len : ℕ)
    (hpart : ∀ i j, first ≤ i → i ≤ j → j < first + len → below j = true → below i = true) :
    first ≤ lowerBoundFrom below first len ∧ lowerBoundFrom below first len ≤ first + len ∧
    (∀ i, first ≤ i → i < lowerBoundFrom below first len → below i = true) ∧
    (∀ i, lowerBoundFrom below first len ≤ i → i < first + len → below i = false) := by
  induction len using Nat.strong_induction_on generalizing first with
  | _ len ih =>
    unfold lowerBoundFrom
    by_cases h : len = 0
    · subst h
      rw [dif_pos rfl]
      refine ⟨le_refl _, le_refl _, fun i h1 h2 => by omega, fun i h1 h2 => by omega⟩
    · rw [dif_neg h]
      by_cases hb : below (first + len / 2) = true
      · rw [if_pos hb]
        have hlt : len - len / 2 - 1 < len := by omega
        obtain ⟨a, b, c, e⟩ := ih _ hlt (first + len / 2 + 1)
          (fun i j h1 h2 h3 h4 => hpart i j (by omega) h2 (by omega) h4)
        refine ⟨by omega, by omega, fun i h1 h2 => ?_, fun i h1 h2 => e i h1 (by omega)⟩
        by_cases h3 : first + len / 2 + 1 ≤ i
        · exact c i h3 h2
        · exact hpart i (first + len / 2) h1 (by omega) (by omega) hb
      · rw [if_neg hb]
        have hlt : len / 2 < len := by omega
        obtain ⟨a, b, c, e⟩ := ih _ hlt first
          (fun i j h1 h2 h3 h4 => hpart i j h1 h2 (by omega) h4)
        refine ⟨a, by omega, c, fun i h1 h2 => ?_⟩
        by_cases h3 : i < first + len / 2
        · exact e i h1 h3
        · by_contra hc
          have hc' : below i = true := by simpa using hc
          exact hb (hpart (first + len / 2) i (by omega) (by omega) h2 hc')

theorem lowerBound_spec (below : ℕ → Bool) (n : ℕ)
    (hpart : ∀ i j, i ≤ j → j < n → below j = true → below i = true) :
    lowerBound below n ≤ n ∧ (∀ i, i < lowerBound below n → below i = true) ∧
    (∀ i, lowerBound below n ≤ i → i < n → below i = false) := by
  obtain ⟨-, b, c, e⟩ := lowerBoundFrom_spec below 0 n
    (fun i j _ h2 h3 h4 => hpart i j h2 (by omega) h4)
  exact ⟨by simpa [lowerBound] using b, fun i h => c i (Nat.zero_le _) h,
    fun i h1 h2 => e i h1 (by omega)⟩

/-- Any position that splits the range this way is the one the bisection finds. -/
theorem lowerBound_unique (below : ℕ → Bool) (n k : ℕ) (hk : k ≤ n)
    (h1 : ∀ i, i < k → below i = true) (h2 : ∀ i, k ≤ i → i < n → below i = false) :
    lowerBound below n = k := by
  obtain ⟨a, b, c⟩ := lowerBound_spec below n (fun i j hij hj hb => by
    apply h1
    by_contra hc
    have := h2 j (by omega) hj
    rw [this] at hb
    exact Bool.noConfusion hb)
  rcases lt_trichotomy (lowerBound below n) k with h | h | h
  · have e1 := h1 _ h
    have e2 := c _ le_rfl (by omega)
    rw [e1] at e2
    exact Bool.noConfusion e2
  · exact h
  · have e1 := b _ h
    have e2 := h2 _ le_rfl (by omega)
    rw [e1] at e2
    exact Bool.noConfusion e2

theorem splitOn_append_of_notMem {nl : Char} (pre s : List Char) (h : nl ∉ pre) :
    List.splitOn nl (pre ++ s) = (List.splitOn nl s).modifyHead (pre ++ ·) := by
  induction pre with
  | nil =>
    cases hs : List.splitOn nl s <;> simp [hs]
  | cons c cs ih =>
    have hc : ¬ (c == nl) = true := by
      intro hcc
      exact h (by simp [(beq_iff_eq.mp hcc).symm])
    have hcs : nl ∉ cs := fun hm => h (List.mem_cons_of_mem _ hm)
    have ih' := ih hcs
    simp only [List.splitOn, List.cons_append] at ih' ⊢
    rw [List.splitOnP_cons, if_neg (by simpa using hc), ih']
    cases List.splitOnP (fun x => x == nl) s <;> simp

theorem splitOn_replaceNewlines (pre : List Char) (h : '\n' ∉ pre) (msg : List Char) :
    List.splitOn '\n' (pre ++ replaceNewlines ('\n' :: pre) msg) =
      (List.splitOn '\n' msg).map (pre ++ ·) := by
  induction msg with
  | nil =>
    rw [splitOn_append_of_notMem _ _ h]
    simp [replaceNewlines, List.splitOn]
  | cons c cs ih =>
    by_cases hc : c = '\n'
    · subst hc
      have e : replaceNewlines ('\n' :: pre) ('\n' :: cs) =
          '\n' :: (pre ++ replaceNewlines ('\n' :: pre) cs) := by
        simp [replaceNewlines]
      rw [splitOn_append_of_notMem _ _ h, e]
      have e2 : ∀ s : List Char, List.splitOn '\n' ('\n' :: s) = [] :: List.splitOn '\n' s := by
        intro s
        simp [List.splitOn, List.splitOnP_cons]
      rw [e2, e2, ih]
      simp
    · have e : replaceNewlines ('\n' :: pre) (c :: cs) =
          c :: replaceNewlines ('\n' :: pre) cs := by
        simp [replaceNewlines, hc]
      have e2 : ∀ s : List Char,
          List.splitOn '\n' (c :: s) = (List.splitOn '\n' s).modifyHead (c :: ·) := by
        intro s
        simp only [List.splitOn]
        rw [List.splitOnP_cons, if_neg (by simpa using hc)]
      rw [splitOn_append_of_notMem _ _ h] at ih ⊢
      rw [e, e2, e2]
      have n1 : List.splitOn '\n' (replaceNewlines ('\n' :: pre) cs) ≠ [] :=
        List.splitOnP_ne_nil _ _
      have n2 : List.splitOn '\n' cs ≠ [] := List.splitOnP_ne_nil _ _
      revert ih n1 n2
      cases List.splitOn '\n' (replaceNewlines ('\n' :: pre) cs) with
      | nil => intro _ h1; exact absurd rfl h1
      | cons a as =>
        cases List.splitOn '\n' cs with
        | nil => intro _ _ h2; exact absurd rfl h2
        | cons b bs =>
          intro ih _ _
          simp only [List.modifyHead_cons, List.map_cons, List.cons.injEq,
            List.append_cancel_left_eq] at ih ⊢
          exact ⟨by simp [ih.1], ih.2⟩

theorem firstFree_some {C : Type*} (fs : FileSystem C) (name : List Char) (fuel i k : ℕ)
    (h : firstFree fs name fuel i = some k) :
    i ≤ k ∧ k < i + fuel ∧ fs (numberedName name k) = none ∧
      ∀ j, i ≤ j → j < k → fs (numberedName name j) ≠ none := by
  induction fuel generalizing i with
  | zero => simp [firstFree] at h
  | succ n ih =>
    unfold firstFree at h
    by_cases hf : (fs (numberedName name i)).isNone = true
    · rw [if_pos hf] at h
      obtain rfl : i = k := by simpa using h
      exact ⟨le_refl _, by omega, by simpa using hf, fun j h1 h2 => by omega⟩
    · rw [if_neg hf] at h
      obtain ⟨a, b, c, d⟩ := ih (i + 1) h
      refine ⟨by omega, by omega, c, fun j h1 h2 => ?_⟩
      by_cases hj : j = i
      · subst hj
        intro hn
        exact hf (by simp [hn])
      · exact d j (by omega) h2

theorem firstFree_none {C : Type*} (fs : FileSystem C) (name : List Char) (fuel i : ℕ)
    (h : firstFree fs name fuel i = none) :
    ∀ j, i ≤ j → j < i + fuel → fs (numberedName name j) ≠ none := by
  induction fuel generalizing i with
  | zero => intro j h1 h2; omega
  | succ n ih =>
    unfold firstFree at h
    by_cases hf : (fs (numberedName name i)).isNone = true
    · rw [if_pos hf] at h
      simp at h
    · rw [if_neg hf] at h
      intro j h1 h2
      by_cases hj : j = i
      · subst hj
        intro hn
        exact hf (by simp [hn])
      · exact ih (i + 1) h j (by omega) (by omega)

theorem numberedName_ne (name : List Char) (i : ℕ) : numberedName name i ≠ name := by
  intro h
  have := congrArg List.length h
  simp [numberedName] at this

end Fub
